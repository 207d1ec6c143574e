{"id": "C01", "title": "PKCS#7/PKCS#5 padding round-trips", "statement": "UnPadding(Padding(text, blockSize)) returns exactly text with no error, for PKCS7 with every block size 1..255 and for PKCS5 (always 8); the padded length is the least multiple of the block size strictly greater than len(text).", "quantifier": "every byte string text and every block size", "why_tests_cant": "Quantifies over an infinite set of inputs; a test samples a handful. The property also has a boundary at block size 256 where the length byte wraps.", "anchors": ["padding/pkcs7.go:PKCS7.Padding", "padding/pkcs7.go:PKCS7.UnPadding", "padding/pkcs5.go:PKCS5"]}
{"id": "C02", "title": "PKCS#7/PKCS#5 UnPadding accepts only well-formed padding", "statement": "UnPadding(src) never panics; it succeeds with t only if src is t followed by k bytes all equal to k, where k is the last byte, and it rejects everything else. In particular only strings ending in k copies of a k with 1 <= k should be accepted.", "quantifier": "every byte string src", "why_tests_cant": "Quantifies over an infinite set of inputs; a test samples a handful. Rejection of every malformed string cannot be enumerated.", "anchors": ["padding/pkcs7.go:PKCS7.UnPadding", "padding/pkcs5.go:PKCS5.UnPadding"]}
{"id": "C03", "title": "ANSI X9.23 padding round-trips and is checked", "statement": "UnPadding(Padding(text, bs)) = text for bs 1..255; UnPadding never panics and succeeds only on t ++ 0^(k-1) ++ [k].", "quantifier": "every text, every block size, every src", "why_tests_cant": "Quantifies over an infinite set of inputs; a test samples a handful.", "anchors": ["padding/x923.go:X923"]}
{"id": "C04", "title": "ISO 10126 padding round-trips whatever the random filler", "statement": "UnPadding(Padding(text, bs)) = text for bs 1..255 for every outcome of the random filler bytes.", "quantifier": "every text, block size and every random outcome", "why_tests_cant": "The random filler makes each run different; only a proof covers all outcomes.", "anchors": ["padding/iso10126.go:ISO10126", "padding/padding.go:randomBytes"]}
{"id": "C05", "title": "ISO 7816-4 / ISO 9797-1 M2 / PBOC2 padding is a bijection onto its image", "statement": "UnPadding(Padding(text, bs)) = text for every bs >= 1, and UnPadding(src) = t exactly when src = t ++ [0x80] ++ zeros.", "quantifier": "every text, every block size >= 1, every src", "why_tests_cant": "Quantifies over an infinite set of inputs; a test samples a handful.", "anchors": ["padding/iso7816_4.go:ISO7816_4", "padding/iso97971.go:ISO97971", "padding/pboc2.go:PBOC2"]}
{"id": "C06", "title": "Zero padding round-trips exactly on texts that do not end in 0x00", "statement": "UnPadding(Padding(text, bs)) = text if and only if text does not end in a zero byte; it never fails.", "quantifier": "every text, every block size >= 1", "why_tests_cant": "Quantifies over an infinite set of inputs; a test samples a handful.", "anchors": ["padding/zero.go:Zero"]}
{"id": "C07", "title": "Trailing-bit-complement padding round-trips and is checked", "statement": "UnPadding(Padding(text, bs)) = text for every bs >= 1, and UnPadding succeeds with t exactly on t followed by one or more complement bytes of t's last bit (0xFF for empty t).", "quantifier": "every text, block size and src", "why_tests_cant": "Quantifies over an infinite set of inputs; a test samples a handful.", "anchors": ["padding/tbc.go:TBC"]}
{"id": "C08", "title": "PKCS#1-style padding is reversible", "statement": "For every text and block type the padded text is removed again by UnPadding whenever the padding was applied; the padded block has exactly blockSize bytes.", "quantifier": "every text, block type 00/01/02, block size, random filler", "why_tests_cant": "Quantifies over an infinite set of inputs; a test samples a handful. Wrap of the one-byte length field only shows for long texts.", "anchors": ["padding/pkcs1.go:PKCS1"]}
{"id": "C09", "title": "Padding keeps the text and aligns to the block size", "statement": "For every padding except PKCS1 and every bs >= 1, Padding(text, bs) starts with text and its length is a positive multiple of bs; for bs < 1 text is returned unchanged.", "quantifier": "every text and every (possibly negative) block size", "why_tests_cant": "Quantifies over an infinite set of inputs; a test samples a handful.", "anchors": ["padding/*.go:Padding"]}
{"id": "C10", "title": "Padding does not write to memory the caller did not hand over", "statement": "Padding(text, bs) leaves every byte of memory that is visible through other slices unchanged.", "quantifier": "every heap, every slice (pointer, length, capacity)", "why_tests_cant": "Depends on the capacity of the caller's slice and aliasing, which unit tests with fresh literals never exercise.", "anchors": ["padding/pkcs7.go:PKCS7.Padding"]}
{"id": "C11", "title": "ECB computes the ECB mode and decryption inverts encryption", "statement": "For every block cipher, CryptBlocks of the ECB encrypter writes to dst exactly the ECB ciphertext of src (chaining equations), touches no other memory, and the decrypter with the same IV restores src. ", "quantifier": "every block cipher (any block size, any invertible E/D), iv, buffer contents, any number of blocks, disjoint or identical dst/src", "why_tests_cant": "Quantifies over an infinite set of inputs; a test samples a handful. Aliasing of dst/src and unbounded message length are not covered by vectors.", "anchors": ["mode/ecb.go"]}
{"id": "C12", "title": "PCBC computes the PCBC mode and decryption inverts encryption", "statement": "For every block cipher, CryptBlocks of the PCBC encrypter writes to dst exactly the PCBC ciphertext of src (chaining equations), touches no other memory, and the decrypter with the same IV restores src. With dst == src (which the API accepts) the result must be the same as with disjoint buffers.", "quantifier": "every block cipher (any block size, any invertible E/D), iv, buffer contents, any number of blocks, disjoint or identical dst/src", "why_tests_cant": "Quantifies over an infinite set of inputs; a test samples a handful. Aliasing of dst/src and unbounded message length are not covered by vectors.", "anchors": ["mode/pcbc.go"]}
{"id": "C13", "title": "BC computes the BC mode and decryption inverts encryption", "statement": "For every block cipher, CryptBlocks of the BC encrypter writes to dst exactly the BC ciphertext of src (chaining equations), touches no other memory, and the decrypter with the same IV restores src. ", "quantifier": "every block cipher (any block size, any invertible E/D), iv, buffer contents, any number of blocks, disjoint or identical dst/src", "why_tests_cant": "Quantifies over an infinite set of inputs; a test samples a handful. Aliasing of dst/src and unbounded message length are not covered by vectors.", "anchors": ["mode/bc.go"]}
{"id": "C14", "title": "IGE computes the IGE mode and decryption inverts encryption", "statement": "For every block cipher, CryptBlocks of the IGE encrypter writes to dst exactly the IGE ciphertext of src (chaining equations), touches no other memory, and the decrypter with the same IV restores src. SetIV(iv) must put the object into the same state as constructing it with iv.", "quantifier": "every block cipher (any block size, any invertible E/D), iv, buffer contents, any number of blocks, disjoint or identical dst/src", "why_tests_cant": "Quantifies over an infinite set of inputs; a test samples a handful. Aliasing of dst/src and unbounded message length are not covered by vectors.", "anchors": ["mode/ige.go"]}
{"id": "C15", "title": "GOST R 34.13-2015 CBC computes the GOST R 34.13-2015 CBC mode and decryption inverts encryption", "statement": "For every block cipher, CryptBlocks of the GOST R 34.13-2015 CBC encrypter writes to dst exactly the GOST R 34.13-2015 CBC ciphertext of src (chaining equations), touches no other memory, and the decrypter with the same IV restores src. ", "quantifier": "every block cipher (any block size, any invertible E/D), iv, buffer contents, any number of blocks, disjoint or identical dst/src", "why_tests_cant": "Quantifies over an infinite set of inputs; a test samples a handful. Aliasing of dst/src and unbounded message length are not covered by vectors.", "anchors": ["mode/g3413cbc.go"]}
{"id": "C16", "title": "OFBNLF computes the OFBNLF mode and decryption inverts encryption", "statement": "For every block cipher, CryptBlocks of the OFBNLF encrypter writes to dst exactly the OFBNLF ciphertext of src (chaining equations), touches no other memory, and the decrypter with the same IV restores src. ", "quantifier": "every block cipher (any block size, any invertible E/D), iv, buffer contents, any number of blocks, disjoint or identical dst/src", "why_tests_cant": "Quantifies over an infinite set of inputs; a test samples a handful. Aliasing of dst/src and unbounded message length are not covered by vectors.", "anchors": ["mode/ofbnlf.go"]}
{"id": "C17", "title": "Block modes can be fed in pieces", "statement": "For each BlockMode (ECB, PCBC, BC, IGE, GOST-CBC, OFBNLF) and both directions, CryptBlocks(a) followed by CryptBlocks(b) on the same object gives the same output as one CryptBlocks(a||b).", "quantifier": "every split of every message into whole-block pieces, every history of calls", "why_tests_cant": "All splittings of all messages.", "anchors": ["mode/ecb.go", "mode/pcbc.go", "mode/bc.go", "mode/ige.go", "mode/g3413cbc.go", "mode/ofbnlf.go"]}
{"id": "C18", "title": "CFB stream: correct keystream, decryption inverts encryption", "statement": "XORKeyStream of the CFB stream produces the CFB ciphertext defined by its feedback equations, touches no memory outside dst[:len(src)], and decrypting with the same key/IV restores the plaintext. ", "quantifier": "every block cipher, iv, message of any byte length, disjoint or identical dst/src", "why_tests_cant": "Quantifies over an infinite set of inputs; a test samples a handful.", "anchors": ["mode/cfb.go"]}
{"id": "C19", "title": "CFB1 stream: correct keystream, decryption inverts encryption", "statement": "XORKeyStream of the CFB1 stream produces the CFB1 ciphertext defined by its feedback equations, touches no memory outside dst[:len(src)], and decrypting with the same key/IV restores the plaintext. ", "quantifier": "every block cipher, iv, message of any byte length, disjoint or identical dst/src", "why_tests_cant": "Quantifies over an infinite set of inputs; a test samples a handful.", "anchors": ["mode/cfb1.go"]}
{"id": "C20", "title": "CFB8 stream: correct keystream, decryption inverts encryption", "statement": "XORKeyStream of the CFB8 stream produces the CFB8 ciphertext defined by its feedback equations, touches no memory outside dst[:len(src)], and decrypting with the same key/IV restores the plaintext. ", "quantifier": "every block cipher, iv, message of any byte length, disjoint or identical dst/src", "why_tests_cant": "Quantifies over an infinite set of inputs; a test samples a handful.", "anchors": ["mode/cfb8.go"]}
{"id": "C21", "title": "CFB16/CFB32/CFB64 stream: correct keystream, decryption inverts encryption", "statement": "XORKeyStream of the CFB16/CFB32/CFB64 stream produces the CFB16/CFB32/CFB64 ciphertext defined by its feedback equations, touches no memory outside dst[:len(src)], and decrypting with the same key/IV restores the plaintext. The shift register must follow SP 800-38A s-bit CFB.", "quantifier": "every block cipher, iv, message of any byte length, disjoint or identical dst/src", "why_tests_cant": "Quantifies over an infinite set of inputs; a test samples a handful.", "anchors": ["mode/cfb16.go"]}
{"id": "C22", "title": "OFB stream: correct keystream, decryption inverts encryption", "statement": "XORKeyStream of the OFB stream produces the OFB ciphertext defined by its feedback equations, touches no memory outside dst[:len(src)], and decrypting with the same key/IV restores the plaintext. ", "quantifier": "every block cipher with a block shorter than the 512-byte key stream buffer (larger ones never return, proved separately where it applies), iv, message of any byte length, disjoint or identical dst/src", "why_tests_cant": "Quantifies over an infinite set of inputs; a test samples a handful.", "anchors": ["mode/ofb.go"]}
{"id": "C23", "title": "OFB8 stream: correct keystream, decryption inverts encryption", "statement": "XORKeyStream of the OFB8 stream produces the OFB8 ciphertext defined by its feedback equations, touches no memory outside dst[:len(src)], and decrypting with the same key/IV restores the plaintext. ", "quantifier": "every block cipher, iv, message of any byte length, disjoint or identical dst/src", "why_tests_cant": "Quantifies over an infinite set of inputs; a test samples a handful.", "anchors": ["mode/ofb8.go"]}
{"id": "C24", "title": "NOFB/NCFB stream: correct keystream, decryption inverts encryption", "statement": "XORKeyStream of the NOFB/NCFB stream produces the NOFB/NCFB ciphertext defined by its feedback equations, touches no memory outside dst[:len(src)], and decrypting with the same key/IV restores the plaintext. ", "quantifier": "every block cipher with a block shorter than the 512-byte key stream buffer (larger ones never return, proved separately where it applies), iv, message of any byte length, disjoint or identical dst/src", "why_tests_cant": "Quantifies over an infinite set of inputs; a test samples a handful.", "anchors": ["mode/nofb.go"]}
{"id": "C25", "title": "OpenPGP CFB (OCFB) stream: correct keystream, decryption inverts encryption", "statement": "XORKeyStream of the OpenPGP CFB (OCFB) stream produces the OpenPGP CFB (OCFB) ciphertext defined by its feedback equations, touches no memory outside dst[:len(src)], and decrypting with the same key/IV restores the plaintext. The prefix check accepts exactly prefixes whose two repeated bytes match.", "quantifier": "every block cipher, iv, message of any byte length, disjoint or identical dst/src", "why_tests_cant": "Quantifies over an infinite set of inputs; a test samples a handful.", "anchors": ["mode/ocfb.go"]}
{"id": "C26", "title": "GOST CFB with key meshing (GCFB) stream: correct keystream, decryption inverts encryption", "statement": "XORKeyStream of the GOST CFB with key meshing (GCFB) stream produces the GOST CFB with key meshing (GCFB) ciphertext defined by its feedback equations, touches no memory outside dst[:len(src)], and decrypting with the same key/IV restores the plaintext. ", "quantifier": "every block cipher, iv, message of any byte length, disjoint or identical dst/src", "why_tests_cant": "Quantifies over an infinite set of inputs; a test samples a handful.", "anchors": ["mode/gcfb.go"]}
{"id": "C27", "title": "GOST 28147 counter mode (GOFB) stream: correct keystream, decryption inverts encryption", "statement": "XORKeyStream of the GOST 28147 counter mode (GOFB) stream produces the GOST 28147 counter mode (GOFB) ciphertext defined by its feedback equations, touches no memory outside dst[:len(src)], and decrypting with the same key/IV restores the plaintext. ", "quantifier": "every block cipher with a block shorter than the 512-byte key stream buffer (larger ones never return, proved separately where it applies), iv, message of any byte length, disjoint or identical dst/src", "why_tests_cant": "Quantifies over an infinite set of inputs; a test samples a handful.", "anchors": ["mode/gofb.go"]}
{"id": "C28", "title": "GOST R 34.13 CFB/CTR/OFB stream: correct keystream, decryption inverts encryption", "statement": "XORKeyStream of the GOST R 34.13 CFB/CTR/OFB stream produces the GOST R 34.13 CFB/CTR/OFB ciphertext defined by its feedback equations, touches no memory outside dst[:len(src)], and decrypting with the same key/IV restores the plaintext. ", "quantifier": "every block cipher with a block shorter than the 512-byte key stream buffer (larger ones never return, proved separately where it applies), iv, message of any byte length, disjoint or identical dst/src", "why_tests_cant": "Quantifies over an infinite set of inputs; a test samples a handful.", "anchors": ["mode/g3413cfb.go"]}
{"id": "C29", "title": "Stream modes can be fed in pieces", "statement": "For each Stream mode, XORKeyStream(a) then XORKeyStream(b) on one object equals XORKeyStream(a||b).", "quantifier": "every byte-level split of every message, every call history", "why_tests_cant": "All splits and histories; buffer-refill boundaries lie at unusual lengths.", "anchors": ["mode/*.go:XORKeyStream"]}
{"id": "C30", "title": "AES key wrap (RFC 3394) unwraps what it wrapped and detects corruption", "statement": "For every 16-byte block cipher, 8-byte IV and plaintext of n>=2 64-bit blocks, unwrap(wrap(p)) = p; the wrapped value is the one RFC 3394 defines; if the recovered IV differs from the expected one the output buffer is all zero.", "quantifier": "every cipher, IV, plaintext, ciphertext", "why_tests_cant": "Quantifies over an infinite set of inputs; a test samples a handful.", "anchors": ["mode/wrap.go"]}
{"id": "C31", "title": "AES key wrap with padding (RFC 5649) round-trips", "statement": "Unwrapping a value wrapped per RFC 5649 returns the plaintext, and a value whose padding bytes are not zero is rejected.", "quantifier": "every key, every plaintext length", "why_tests_cant": "Quantifies over an infinite set of inputs; a test samples a handful.", "anchors": ["mode/wrap_pad.go"]}
{"id": "C32", "title": "CCM: Open inverts Seal and rejects any other tag", "statement": "Open(nonce, Seal(nonce, p, ad), ad) = p; Open succeeds only if the trailing tag equals the tag computed for the recovered plaintext and ad; otherwise an error and no plaintext is released. Results append to dst and do not depend on earlier calls or on exact aliasing of dst and input. ", "quantifier": "every block cipher, nonce, plaintext, additional data, dst prefix, call history", "why_tests_cant": "Quantifies over an infinite set of inputs; a test samples a handful.", "anchors": ["mode/ccm/ccm.go"]}
{"id": "C33", "title": "EAX: Open inverts Seal and rejects any other tag", "statement": "Open(nonce, Seal(nonce, p, ad), ad) = p; Open succeeds only if the trailing tag equals the tag computed for the recovered plaintext and ad; otherwise an error and no plaintext is released. Results append to dst and do not depend on earlier calls or on exact aliasing of dst and input. ", "quantifier": "every block cipher, nonce, plaintext, additional data, dst prefix, call history", "why_tests_cant": "Quantifies over an infinite set of inputs; a test samples a handful.", "anchors": ["mode/eax/eax.go"]}
{"id": "C34", "title": "MGM: Open inverts Seal and rejects any other tag", "statement": "Open(nonce, Seal(nonce, p, ad), ad) = p; Open succeeds only if the trailing tag equals the tag computed for the recovered plaintext and ad; otherwise an error and no plaintext is released. Results append to dst and do not depend on earlier calls or on exact aliasing of dst and input. ", "quantifier": "every block cipher, nonce, plaintext, additional data, dst prefix, call history", "why_tests_cant": "Quantifies over an infinite set of inputs; a test samples a handful.", "anchors": ["mode/mgm/mgm.go"]}
{"id": "C35", "title": "OCB: Open inverts Seal and rejects any other tag", "statement": "Open(nonce, Seal(nonce, p, ad), ad) = p; Open succeeds only if the trailing tag equals the tag computed for the recovered plaintext and ad; otherwise an error and no plaintext is released. Results append to dst and do not depend on earlier calls or on exact aliasing of dst and input. ", "quantifier": "every block cipher, nonce, plaintext, additional data, dst prefix, call history", "why_tests_cant": "Quantifies over an infinite set of inputs; a test samples a handful.", "anchors": ["mode/ocb/ocb.go"]}
{"id": "C36", "title": "OCB3: Open inverts Seal and rejects any other tag", "statement": "Open(nonce, Seal(nonce, p, ad), ad) = p; Open succeeds only if the trailing tag equals the tag computed for the recovered plaintext and ad; otherwise an error and no plaintext is released. Results append to dst and do not depend on earlier calls or on exact aliasing of dst and input. ", "quantifier": "every block cipher, nonce, plaintext, additional data, dst prefix, call history", "why_tests_cant": "Quantifies over an infinite set of inputs; a test samples a handful.", "anchors": ["mode/ocb3/ocb3.go"]}
{"id": "C37", "title": "SIV: Open inverts Seal and rejects any other tag", "statement": "Open(nonce, Seal(nonce, p, ad), ad) = p; Open succeeds only if the trailing tag equals the tag computed for the recovered plaintext and ad; otherwise an error and no plaintext is released. Results append to dst and do not depend on earlier calls or on exact aliasing of dst and input. ", "quantifier": "every block cipher, nonce, plaintext, additional data, dst prefix, call history", "why_tests_cant": "Quantifies over an infinite set of inputs; a test samples a handful.", "anchors": ["mode/siv/siv.go"]}
{"id": "C38", "title": "HCTR is a length-preserving permutation", "statement": "Decrypt(Encrypt(m)) = m and the length is preserved for every m of at least 16 bytes.", "quantifier": "every cipher, tweak, hash key, message", "why_tests_cant": "Quantifies over an infinite set of inputs; a test samples a handful.", "anchors": ["mode/hctr/hctr.go"]}
{"id": "C39", "title": "Facade Decrypt inverts Encrypt", "statement": "With the same key, iv, mode, padding and configuration, FromBytes(x).Encrypt() then FromBytes(y).Decrypt() returns x with no error.", "quantifier": "every data, every block cipher, every registered mode and padding combination", "why_tests_cant": "Hundreds of combinations times all inputs.", "anchors": ["cryptobin/crypto/encrypt.go", "cryptobin/crypto/encrypt_multiple.go:BlockEncrypt", "cryptobin/crypto/encrypt_mode.go"]}
{"id": "C40", "title": "Facade never panics and never loses errors", "statement": "Encrypt/Decrypt return normally on every input; every error raised by any step is present in Error(), and errors recorded earlier stay recorded.", "quantifier": "every chain of facade calls and every panic inside a cipher", "why_tests_cant": "All histories of builder calls.", "anchors": ["cryptobin/crypto/encrypt.go:Encrypt", "tool/recover/recover.go:Recover", "cryptobin/crypto/error.go:AppendError"]}
{"id": "C41", "title": "Facade values are independent", "statement": "Configuring one chain (WithKey, SetConfig, PutConfig, SetMode..., OnError, AppendError) does not change the observable behaviour of any other value created before or after.", "quantifier": "every interleaving of builder calls on values derived from the package-level default or from a shared base value", "why_tests_cant": "Requires every interleaving of calls on shared ancestors.", "anchors": ["cryptobin/crypto/cryptobin.go:defaultCryptobin", "cryptobin/crypto/with.go", "tool/config/config.go", "tool/error_event/error_event.go"]}
{"id": "C42", "title": "Facade does not modify its inputs", "statement": "Encrypt/Decrypt leave the caller's data, key and iv bytes unchanged, so the same call can be repeated.", "quantifier": "every data/key/iv buffer and mode", "why_tests_cant": "Aliasing-dependent.", "anchors": ["cryptobin/crypto/encrypt_mode.go:ModeOCFB", "padding/*.go"]}
{"id": "C43", "title": "Config/DataSet behave like a map", "statement": "Any sequence of Set/Add, Remove, Get, Has, Clean, Clone, Len operations returns what a finite map would return; typed getters return the stored value only for the stored type.", "quantifier": "every operation sequence", "why_tests_cant": "All histories.", "anchors": ["tool/config/config.go", "cryptobin/crypto/data_set.go"]}
{"id": "C44", "title": "CMAC object computes CMAC of everything written", "statement": "After any history of Write, Sum and Reset calls, Sum returns NIST SP 800-38B CMAC of the bytes written since the last Reset, appends it, and leaves the state unchanged; Verify accepts exactly the tag.", "quantifier": "every block cipher of a supported block size, every history of calls, every message length", "why_tests_cant": "All histories and all ways of splitting a message into writes.", "anchors": ["hash/cmac/cmac.go:New,Write,Sum,Reset,Verify"]}
{"id": "C45", "title": "PMAC object computes PMAC of everything written", "statement": "After any history of Write, Sum and Reset calls, Sum returns PMAC1 of the bytes written since the last Reset and leaves the state usable.", "quantifier": "every block cipher, every history of calls, every message length", "why_tests_cant": "All histories, splits and lengths.", "anchors": ["hash/pmac/pmac.go:New,Write,Sum,Reset"]}
{"id": "C46", "title": "One-shot MACs compute the standard algorithms", "statement": "MAC(m) returns the leading size bytes of the ISO/IEC 9797-1 (GB/T 15852.1) algorithm the constructor names, for every message, without touching memory that is not its own; constructors panic exactly for sizes outside 1..block size or unusable keys.", "quantifier": "every block cipher, key pair, size and message, every memory layout", "why_tests_cant": "All messages, lengths and aliasing layouts.", "anchors": ["mac/cbc_mac.go", "mac/emac.go", "mac/ansi_retail_mac.go", "mac/mac_des.go", "mac/lmac.go", "mac/cmac.go", "mac/tr_cbc_mac.go", "mac/cbcr_mac.go"]}
{"id": "C47", "title": "HCTR is the published mode and depends on the whole tweak", "statement": "hctr.NewHCTR(cipher, tweak, hashKey).Encrypt of a message of at least 16 bytes equals the published HCTR construction: a polynomial hash over GF(2^128), under the hash key, of the message tail, the whole 16-byte tweak and the bit length, around one block encryption and a counter-mode pass; every byte of the tweak enters the result.", "quantifier": "all 16-byte tweaks and hash keys, all 16-byte block ciphers, all message lengths >= 16, with or without a batch interface", "why_tests_cant": "the table-driven multiplication has to be right for all field elements, and the placement of the tweak depends on the message length modulo 16; the shipped test only encrypts one 16-byte message", "anchors": ["mode/hctr/hctr.go: NewHCTR, Encrypt, Decrypt, mul, updateBlock, uhash, ctr"]}
{"id": "C48", "title": "LEA is a block cipher on every key and block", "statement": "cipher/lea.NewCipher returns an error exactly for keys whose length is not 16, 24 or 32. Otherwise it returns a block cipher with 16-byte blocks: for every key and every block Decrypt(Encrypt(b)) = b and Encrypt(Decrypt(b)) = b; both methods panic exactly when src or dst is shorter than a block or the two blocks overlap without being the same, and otherwise write the result block to the first bytes of dst and change no other byte (in-place use included).", "quantifier": "all keys of all lengths, all blocks, all memories and all (also overlapping) dst/src slices", "why_tests_cant": "2^64 to 2^128 blocks per key and all keys; a wrong table entry or a wrong rotation in only one direction shows for a few inputs only; aliasing layouts", "anchors": ["cipher/lea/lea.go: NewCipher, Encrypt, Decrypt", "cipher/lea/utils.go"]}
{"id": "C49", "title": "Speck is a block cipher on every key and block", "statement": "cipher/speck.NewCipher returns an error exactly for keys whose length is not 16, 24 or 32. Otherwise it returns a block cipher with 16-byte blocks: for every key and every block Decrypt(Encrypt(b)) = b and Encrypt(Decrypt(b)) = b; both methods panic exactly when src or dst is shorter than a block or the two blocks overlap without being the same, and otherwise write the result block to the first bytes of dst and change no other byte (in-place use included).", "quantifier": "all keys of all lengths, all blocks, all memories and all (also overlapping) dst/src slices", "why_tests_cant": "2^64 to 2^128 blocks per key and all keys; a wrong table entry or a wrong rotation in only one direction shows for a few inputs only; aliasing layouts", "anchors": ["cipher/speck/speck.go: NewCipher, Encrypt, Decrypt, expandKey", "cipher/speck/utils.go"]}
{"id": "C50", "title": "Simon is a block cipher on every key and block", "statement": "cipher/simon.NewCipher returns an error exactly for keys whose length is not 16, 24 or 32. Otherwise it returns a block cipher with 16-byte blocks: for every key and every block Decrypt(Encrypt(b)) = b and Encrypt(Decrypt(b)) = b; both methods panic exactly when src or dst is shorter than a block or the two blocks overlap without being the same, and otherwise write the result block to the first bytes of dst and change no other byte (in-place use included).", "quantifier": "all keys of all lengths, all blocks, all memories and all (also overlapping) dst/src slices", "why_tests_cant": "2^64 to 2^128 blocks per key and all keys; a wrong table entry or a wrong rotation in only one direction shows for a few inputs only; aliasing layouts", "anchors": ["cipher/simon/simon.go: NewCipher", "cipher/simon/simon128.go", "cipher/simon/simon192.go", "cipher/simon/simon256.go"]}
{"id": "C51", "title": "HIGHT is a block cipher on every key and block", "statement": "cipher/hight.NewCipher returns an error exactly for keys whose length is not 16. Otherwise it returns a block cipher with 8-byte blocks: for every key and every block Decrypt(Encrypt(b)) = b and Encrypt(Decrypt(b)) = b; both methods panic exactly when src or dst is shorter than a block or the two blocks overlap without being the same, and otherwise write the result block to the first bytes of dst and change no other byte (in-place use included).", "quantifier": "all keys of all lengths, all blocks, all memories and all (also overlapping) dst/src slices", "why_tests_cant": "2^64 to 2^128 blocks per key and all keys; a wrong table entry or a wrong rotation in only one direction shows for a few inputs only; aliasing layouts", "anchors": ["cipher/hight/hight.go: NewCipher, Encrypt, Decrypt", "cipher/hight/sbox.go"]}
{"id": "C52", "title": "RC5 is a block cipher on every key and block", "statement": "cipher/rc5.NewCipher returns an error exactly for keys whose length is not 8, 16, 24 or 32 (or whose number of rounds is outside 8..127, or whose word size is not 16, 32 or 64). Otherwise it returns a block cipher with wordSize/4-byte blocks: for every key and every block Decrypt(Encrypt(b)) = b and Encrypt(Decrypt(b)) = b; both methods panic exactly when src or dst is shorter than a block or the two blocks overlap without being the same, and otherwise write the result block to the first bytes of dst and change no other byte (in-place use included).", "quantifier": "all keys of all lengths, all word sizes and round counts, all blocks, all memories and slices", "why_tests_cant": "2^64 to 2^128 blocks per key and all keys; a wrong table entry or a wrong rotation in only one direction shows for a few inputs only; aliasing layouts", "anchors": ["cipher/rc5/rc5.go: NewCipher", "cipher/rc5/cipher16.go", "cipher/rc5/cipher32.go", "cipher/rc5/cipher64.go"]}
{"id": "C53", "title": "RC6 is a block cipher on every key and block", "statement": "cipher/rc6.NewCipher returns an error exactly for keys whose length is not 16. Otherwise it returns a block cipher with 16-byte blocks: for every key and every block Decrypt(Encrypt(b)) = b and Encrypt(Decrypt(b)) = b; both methods panic exactly when src or dst is shorter than a block or the two blocks overlap without being the same, and otherwise write the result block to the first bytes of dst and change no other byte (in-place use included).", "quantifier": "all keys of all lengths, all blocks, all memories and all (also overlapping) dst/src slices", "why_tests_cant": "2^64 to 2^128 blocks per key and all keys; a wrong table entry or a wrong rotation in only one direction shows for a few inputs only; aliasing layouts", "anchors": ["cipher/rc6/rc6.go: NewCipher, Encrypt, Decrypt"]}
{"id": "C54", "title": "RC2 is a block cipher on every key and effective key length, and panics on the rest", "statement": "rc2.NewCipher(key, t1) returns a block cipher (as in C48, 8-byte blocks) for every non-empty key and every effective key length 1..1024 bits; for every other argument it panics; it never returns an error.", "quantifier": "all keys, all integers t1, all blocks, memories and slices", "why_tests_cant": "the index arithmetic of the key expansion has to stay in range for every key length and every t1, including keys longer than the 128-byte buffer", "anchors": ["cipher/rc2/rc2.go: NewCipher, expandKey, encrypt, decrypt"]}
{"id": "C55", "title": "SM4 is a block cipher on every key and block", "statement": "cipher/sm4.NewCipher returns an error exactly for keys whose length is not 16. Otherwise it returns a block cipher with 16-byte blocks: for every key and every block Decrypt(Encrypt(b)) = b and Encrypt(Decrypt(b)) = b; both methods panic exactly when src or dst is shorter than a block or the two blocks overlap without being the same, and otherwise write the result block to the first bytes of dst and change no other byte (in-place use included). The table-driven round function equals the one defined by the S-box and the linear map.", "quantifier": "all keys of all lengths, all blocks, all memories and all (also overlapping) dst/src slices", "why_tests_cant": "2^64 to 2^128 blocks per key and all keys; a wrong table entry or a wrong rotation in only one direction shows for a few inputs only; aliasing layouts", "anchors": ["cipher/sm4/sm4.go: NewCipher, Encrypt, Decrypt", "cipher/sm4/utils.go", "cipher/sm4/sbox.go"]}
{"id": "C56", "title": "SEED is a block cipher on every key and block", "statement": "cipher/seed.NewCipher returns an error exactly for keys whose length is not 16 or 32. Otherwise it returns a block cipher with 16-byte blocks: for every key and every block Decrypt(Encrypt(b)) = b and Encrypt(Decrypt(b)) = b; both methods panic exactly when src or dst is shorter than a block or the two blocks overlap without being the same, and otherwise write the result block to the first bytes of dst and change no other byte (in-place use included).", "quantifier": "all keys of all lengths, all blocks, all memories and all (also overlapping) dst/src slices", "why_tests_cant": "2^64 to 2^128 blocks per key and all keys; a wrong table entry or a wrong rotation in only one direction shows for a few inputs only; aliasing layouts", "anchors": ["cipher/seed/seed.go: NewCipher", "cipher/seed/seed128.go", "cipher/seed/seed256.go", "cipher/seed/utils.go"]}
{"id": "C57", "title": "KSEED is a block cipher on every key and block", "statement": "cipher/kseed.NewCipher returns an error exactly for keys whose length is not 16. Otherwise it returns a block cipher with 16-byte blocks: for every key and every block Decrypt(Encrypt(b)) = b and Encrypt(Decrypt(b)) = b; both methods panic exactly when src or dst is shorter than a block or the two blocks overlap without being the same, and otherwise write the result block to the first bytes of dst and change no other byte (in-place use included). Its blocks are those of cipher/seed under the same key.", "quantifier": "all keys of all lengths, all blocks, all memories and all (also overlapping) dst/src slices", "why_tests_cant": "2^64 to 2^128 blocks per key and all keys; a wrong table entry or a wrong rotation in only one direction shows for a few inputs only; aliasing layouts", "anchors": ["cipher/kseed/kseed.go: NewCipher, Encrypt, Decrypt", "cipher/kseed/utils.go"]}
{"id": "C58", "title": "ARIA is a block cipher on every key and block", "statement": "cipher/aria.NewCipher returns an error exactly for keys whose length is not 16, 24 or 32. Otherwise it returns a block cipher with 16-byte blocks: for every key and every block Decrypt(Encrypt(b)) = b and Encrypt(Decrypt(b)) = b; both methods panic exactly when src or dst is shorter than a block or the two blocks overlap without being the same, and otherwise write the result block to the first bytes of dst and change no other byte (in-place use included).", "quantifier": "all keys of all lengths, all blocks, all memories and all (also overlapping) dst/src slices", "why_tests_cant": "2^64 to 2^128 blocks per key and all keys; a wrong table entry or a wrong rotation in only one direction shows for a few inputs only; aliasing layouts", "anchors": ["cipher/aria/aria.go: NewCipher, Encrypt, Decrypt, expandKey", "cipher/aria/utils.go", "cipher/aria/sbox.go"]}
{"id": "C59", "title": "Camellia is a block cipher on every key and block", "statement": "cipher/camellia.NewCipher returns an error exactly for keys whose length is not 16, 24 or 32. Otherwise it returns a block cipher with 16-byte blocks: for every key and every block Decrypt(Encrypt(b)) = b and Encrypt(Decrypt(b)) = b; both methods panic exactly when src or dst is shorter than a block or the two blocks overlap without being the same, and otherwise write the result block to the first bytes of dst and change no other byte (in-place use included).", "quantifier": "all keys of all lengths, all blocks, all memories and all (also overlapping) dst/src slices", "why_tests_cant": "2^64 to 2^128 blocks per key and all keys; a wrong table entry or a wrong rotation in only one direction shows for a few inputs only; aliasing layouts", "anchors": ["cipher/camellia/camellia.go: NewCipher, Encrypt, Decrypt", "cipher/camellia/utils.go", "cipher/camellia/sboxs.go"]}
{"id": "C60", "title": "CAST is a block cipher on every key and block", "statement": "cipher/cast.NewCipher returns an error exactly for keys whose length is not 16, 20, 24, 28 or 32. Otherwise it returns a block cipher with 16-byte blocks: for every key and every block Decrypt(Encrypt(b)) = b and Encrypt(Decrypt(b)) = b; both methods panic exactly when src or dst is shorter than a block or the two blocks overlap without being the same, and otherwise write the result block to the first bytes of dst and change no other byte (in-place use included).", "quantifier": "all keys of all lengths, all blocks, all memories and all (also overlapping) dst/src slices", "why_tests_cant": "2^64 to 2^128 blocks per key and all keys; a wrong table entry or a wrong rotation in only one direction shows for a few inputs only; aliasing layouts", "anchors": ["cipher/cast/cast.go: NewCipher, Encrypt, Decrypt", "cipher/cast/utils.go", "cipher/cast/sboxs.go"]}
{"id": "C61", "title": "CAST-256 is a block cipher on every key and block", "statement": "cipher/cast256.NewCipher returns an error exactly for keys whose length is not 16, 20, 24, 28 or 32. Otherwise it returns a block cipher with 16-byte blocks: for every key and every block Decrypt(Encrypt(b)) = b and Encrypt(Decrypt(b)) = b; both methods panic exactly when src or dst is shorter than a block or the two blocks overlap without being the same, and otherwise write the result block to the first bytes of dst and change no other byte (in-place use included). It is interchangeable with cipher/cast: same keys, same results.", "quantifier": "all keys of all lengths, all blocks, all memories and all (also overlapping) dst/src slices", "why_tests_cant": "2^64 to 2^128 blocks per key and all keys; a wrong table entry or a wrong rotation in only one direction shows for a few inputs only; aliasing layouts", "anchors": ["cipher/cast256/cast256.go: NewCipher, Encrypt, Decrypt", "cipher/cast256/utils.go", "cipher/cast256/sboxs.go"]}
{"id": "C62", "title": "IDEA is a block cipher on every key and block", "statement": "cipher/idea.NewCipher returns an error exactly for keys whose length is not 16. Otherwise it returns a block cipher with 8-byte blocks: for every key and every block Decrypt(Encrypt(b)) = b and Encrypt(Decrypt(b)) = b; both methods panic exactly when src or dst is shorter than a block or the two blocks overlap without being the same, and otherwise write the result block to the first bytes of dst and change no other byte (in-place use included). The modular inverses of the key setup exist for every word; the Euclidean loop never divides by zero.", "quantifier": "all keys of all lengths, all blocks, all memories and all (also overlapping) dst/src slices", "why_tests_cant": "2^64 to 2^128 blocks per key and all keys; a wrong table entry or a wrong rotation in only one direction shows for a few inputs only; aliasing layouts", "anchors": ["cipher/idea/idea.go: NewCipher, expandKey, invertKey, mulInv, mul, crypt"]}
{"id": "C63", "title": "CLEFIA is a block cipher on every key and block", "statement": "cipher/clefia.NewCipher returns an error exactly for keys whose length is not 16, 24 or 32. Otherwise it returns a block cipher with 16-byte blocks: for every key and every block Decrypt(Encrypt(b)) = b and Encrypt(Decrypt(b)) = b; both methods panic exactly when src or dst is shorter than a block or the two blocks overlap without being the same, and otherwise write the result block to the first bytes of dst and change no other byte (in-place use included).", "quantifier": "all keys of all lengths, all blocks, all memories and all (also overlapping) dst/src slices", "why_tests_cant": "2^64 to 2^128 blocks per key and all keys; a wrong table entry or a wrong rotation in only one direction shows for a few inputs only; aliasing layouts", "anchors": ["cipher/clefia/clefia.go: NewCipher, Encrypt, Decrypt", "cipher/clefia/utils.go: ClefiaGfn4, ClefiaGfn4Inv, ClefiaKeySet, ClefiaEncrypt, ClefiaDecrypt"]}
{"id": "C64", "title": "KASUMI is a block cipher on every key and block", "statement": "cipher/kasumi.NewCipher returns an error exactly for keys whose length is not 16. Otherwise it returns a block cipher with 8-byte blocks: for every key and every block Decrypt(Encrypt(b)) = b and Encrypt(Decrypt(b)) = b; both methods panic exactly when src or dst is shorter than a block or the two blocks overlap without being the same, and otherwise write the result block to the first bytes of dst and change no other byte (in-place use included). The S-box indices computed in FI are in range for every input.", "quantifier": "all keys of all lengths, all blocks, all memories and all (also overlapping) dst/src slices", "why_tests_cant": "2^64 to 2^128 blocks per key and all keys; a wrong table entry or a wrong rotation in only one direction shows for a few inputs only; aliasing layouts", "anchors": ["cipher/kasumi/kasumi.go: NewCipher, Encrypt, Decrypt, FI, FO, FL, KeySchedule"]}
{"id": "C65", "title": "MISTY1 is a block cipher on every key and block", "statement": "cipher/misty1.NewCipher returns an error exactly for keys whose length is not 16. Otherwise it returns a block cipher with 8-byte blocks: for every key and every block Decrypt(Encrypt(b)) = b and Encrypt(Decrypt(b)) = b; both methods panic exactly when src or dst is shorter than a block, and otherwise write the result for the block src held before the call to the first 8 bytes of dst and change no other byte - also when the two overlap in part, for which this package, unlike its siblings, has no check.", "quantifier": "all keys of all lengths, all blocks, all memories and all (also overlapping) dst/src slices", "why_tests_cant": "2^64 to 2^128 blocks per key and all keys; a wrong table entry or a wrong rotation in only one direction shows for a few inputs only; aliasing layouts", "anchors": ["cipher/misty1/misty1.go: NewCipher, Encrypt, Decrypt, fo, fl, flinv, expandKey"]}
{"id": "C66", "title": "MULTI2 is a block cipher for every accepted number of rounds", "statement": "cipher/multi2.NewCipher(key, rounds) returns an error exactly for keys whose length is not 40. For every number of rounds it accepts, both methods return; Decrypt(Encrypt(b)) = b and Encrypt(Decrypt(b)) = b for every block; both panic exactly on short or inexactly overlapping slices and otherwise write exactly 8 bytes of dst.", "quantifier": "all keys, all int32 round counts, all blocks, all memories and dst/src slices", "why_tests_cant": "2^64 to 2^128 blocks per key and all keys; a wrong table entry or a wrong rotation in only one direction shows for a few inputs only; aliasing layouts", "anchors": ["cipher/multi2/multi2.go: NewCipher, Encrypt, Decrypt", "cipher/multi2/utils.go: encrypt, decrypt, setup, pi1..pi4"]}
{"id": "C67", "title": "NOEKEON is a block cipher on every key and block", "statement": "cipher/noekeon.NewCipher returns an error exactly for keys whose length is not 16. Otherwise it returns a block cipher with 16-byte blocks: for every key and every block Decrypt(Encrypt(b)) = b and Encrypt(Decrypt(b)) = b; both methods panic exactly when src or dst is shorter than a block or the two blocks overlap without being the same, and otherwise write the result block to the first bytes of dst and change no other byte (in-place use included).", "quantifier": "all keys of all lengths, all blocks, all memories and all (also overlapping) dst/src slices", "why_tests_cant": "2^64 to 2^128 blocks per key and all keys; a wrong table entry or a wrong rotation in only one direction shows for a few inputs only; aliasing layouts", "anchors": ["cipher/noekeon/noekeon.go: NewCipher, Encrypt, Decrypt, expandKey", "cipher/noekeon/utils.go: THETA, kTHETA, GAMMA, PI1, PI2"]}
{"id": "C68", "title": "3-Way is a block cipher on every key and block", "statement": "cipher/threeway.NewCipher returns an error exactly for keys whose length is not 12. Otherwise it returns a block cipher with 12-byte blocks: for every key and every block Decrypt(Encrypt(b)) = b and Encrypt(Decrypt(b)) = b; both methods panic exactly when src or dst is shorter than a block or the two blocks overlap without being the same, and otherwise write the result block to the first bytes of dst and change no other byte (in-place use included).", "quantifier": "all keys of all lengths, all blocks, all memories and all (also overlapping) dst/src slices", "why_tests_cant": "2^64 to 2^128 blocks per key and all keys; a wrong table entry or a wrong rotation in only one direction shows for a few inputs only; aliasing layouts", "anchors": ["cipher/threeway/threeway.go: NewCipher, Encrypt, Decrypt", "cipher/threeway/utils.go: mu, gamma, theta, pi_1, pi_2, rho, rndcon_gen"]}
{"id": "C69", "title": "PRESENT is a block cipher on every key and block", "statement": "cipher/present.NewCipher returns an error exactly for keys whose length is not 10 or 16. Otherwise it returns a block cipher with 8-byte blocks: for every key and every block Decrypt(Encrypt(b)) = b and Encrypt(Decrypt(b)) = b; both methods panic exactly when src or dst is shorter than a block or the two blocks overlap without being the same, and otherwise write the result block to the first bytes of dst and change no other byte (in-place use included).", "quantifier": "all keys of all lengths, all blocks, all memories and all (also overlapping) dst/src slices", "why_tests_cant": "2^64 to 2^128 blocks per key and all keys; a wrong table entry or a wrong rotation in only one direction shows for a few inputs only; aliasing layouts", "anchors": ["cipher/present/present.go: NewCipher, Encrypt, Decrypt, expandKey, encryptBlock, decryptBlock", "cipher/present/sbox.go: sbox, isbox, ipbox, spbox"]}
{"id": "C70", "title": "bencode.Unmarshal terminates without panic on every input", "statement": "For every byte string, bencode.Unmarshal into *any, *map[string]any (Data) or *[]any returns a value or an error: it never panics and never loops, and the recursion depth is at most twice the input length.", "quantifier": "every byte string, of any length and nesting", "why_tests_cant": "The input is untrusted and unbounded; a fuzzer samples it, while the claim is about all inputs and all nestings.", "anchors": ["bencode/decode.go: Decode, parseValue, parseValueInterface, parseListInterface, parseDictInterface, parseIntInterface, parseStringInterface, parseDict, parseList", "bencode/bencode.go: Unmarshal"]}
{"id": "C71", "title": "bencode.Unmarshal into any accepts exactly the canonical encodings", "statement": "bencode.Unmarshal(data, &x) with x of type any succeeds with value v exactly when data is the canonical bencode form of v: integers as printed in decimal without leading zeros or -0, strings with their exact length of at most 2^27-1, lists, dictionaries with strictly increasing keys, and nothing after the value.", "quantifier": "every byte string and every value", "why_tests_cant": "An if-and-only-if over all byte strings; tests show some accepted and some rejected inputs.", "anchors": ["bencode/decode.go: parseValueInterface, checkBufferedInt, parseStringLength, parseDictInterface, readBytes", "bencode/bencode.go: Unmarshal"]}
{"id": "C72", "title": "bencode.Marshal is canonical and inverted by Unmarshal", "statement": "For every Go value made of booleans, integers of any size, strings, []byte, slices and maps with string keys (strings at most 2^27-1 long), bencode.Marshal succeeds with the canonical form, whatever order the runtime enumerates map keys in, and Unmarshal into an any returns the value (booleans as 0/1, []byte as string). Data accepted by Unmarshal is reproduced byte for byte by Marshal, and two different values never have the same encoding.", "quantifier": "every such value of any depth and every map iteration order", "why_tests_cant": "Map iteration order is random and nested values are unbounded.", "anchors": ["bencode/encode.go: reflectValue, reflectSequence, reflectString, stringValues", "bencode/bencode.go: Marshal, Unmarshal"]}
{"id": "C73", "title": "A bencode Decoder reads a stream value by value and counts its bytes", "statement": "Calling Decode(&x), x any, repeatedly on one Decoder over a concatenation of canonical encodings returns the values in order, leaves what follows unread, and after each call Offset is the sum of the lengths consumed. Every successful Decode consumes exactly one canonical value and adds its length to Offset.", "quantifier": "every sequence of values, every remainder, every starting offset and limit below 2^63", "why_tests_cant": "Prefix-freeness over all values and all continuations.", "anchors": ["bencode/decode.go: Decode, Decoder.Offset, readByte, readUntil, parseStringInterface", "bencode/scanner.go: ReadByte, Read"]}
{"id": "C74", "title": "bencode.Unmarshal into a map", "statement": "bencode.Unmarshal into a nil map[string]any or Data returns every marshalled map unchanged, and whatever it accepts is a map with bounded keys and canonical values; it should accept exactly the canonical form, as the any target does.", "quantifier": "every map and every byte string", "why_tests_cant": "All inputs, all maps.", "anchors": ["bencode/decode.go: parseValue, parseDict, parseList, getDictField, parseString", "bencode/data.go: Data"]}
{"id": "C75", "title": "bencode slices and arrays survive a round trip", "statement": "A []any marshalled by bencode.Marshal can be read back by Unmarshal into a *[]any, and a Go array is marshalled as the list of its elements.", "quantifier": "every slice and array", "why_tests_cant": "All element lists; the existing tests use typed slices only.", "anchors": ["bencode/decode.go: parseList, parseValue", "bencode/encode.go: reflectSequence"]}
{"id": "C76", "title": "MD2 computes RFC 1319 for every call history", "statement": "For a hash.Hash from md2.New, every sequence of Write, Sum and Reset calls returns, without panic, from each Sum(p) the bytes p followed by the RFC 1319 digest of exactly the bytes written since the last Reset, however they were split; Sum does not disturb later calls; md2.Sum(data) is the same function.", "quantifier": "all histories of Write/Sum/Reset with any byte strings, all messages", "why_tests_cant": "The number of ways to split a message and interleave Sum and Reset is unbounded; a buffering mistake shows only at particular lengths.", "anchors": ["hash/md2/digest.go: digest.Write, Sum, checkSum, block", "hash/md2/md2.go: New, Sum"]}
{"id": "C77", "title": "SM3 computes GB/T 32905 for every call history and can be saved and restored", "statement": "For a hash.Hash from sm3.New, every sequence of Write, Sum and Reset returns from each Sum(p) the bytes p followed by the GB/T 32905-2016 digest of the bytes written since the last Reset. MarshalBinary succeeds at any point, and an object that UnmarshalBinary fills from the result continues exactly as the saved one would. UnmarshalBinary accepts exactly inputs of 108 bytes with the magic prefix and never panics.", "quantifier": "all histories before and after the save, all messages, all saved byte strings", "why_tests_cant": "Splits, interleavings and save points are unbounded.", "anchors": ["hash/sm3/digest.go: digest.Write, Sum, checkSum, block", "hash/sm3/binary.go: MarshalBinary, UnmarshalBinary", "hash/sm3/sm3.go: New, Sum"]}
{"id": "C78", "title": "HAS-160 computes TTAS.KO-12.0011 for every call history", "statement": "For a hash.Hash from has160.New, every sequence of Write, Sum and Reset returns from each Sum(p) the bytes p followed by the HAS-160 digest of the bytes written since the last Reset; has160.Sum(data) is the same function.", "quantifier": "all histories of Write/Sum/Reset with any byte strings, all messages", "why_tests_cant": "Splits and interleavings are unbounded; padding has special cases at particular lengths.", "anchors": ["hash/has160/digest.go: digest.Write, Sum, checkSum, stepBlock", "hash/has160/has160.go: New, Sum"]}
{"id": "C79", "title": "belt-hash computes STB 34.101.31 for every call history", "statement": "For a hash.Hash from hash/belt New, every sequence of Write, Sum and Reset returns from each Sum(p) the bytes p followed by the belt-hash digest (STB 34.101.31) of the bytes written since the last Reset; belt.Sum(data) is the same function.", "quantifier": "all histories of Write/Sum/Reset with any byte strings, all messages", "why_tests_cant": "Splits and interleavings are unbounded; the 128-bit length counter and the zero-padded last block are only exercised at particular lengths.", "anchors": ["hash/belt/digest.go: digest.Write, Sum, checkSum, updateCtr, process", "hash/belt/utils.go: encrypt, sigma1Xor, sigma2", "hash/belt/belt.go: New, Sum"]}
{"id": "C80", "title": "BASH digests do not depend on how the message is split", "statement": "For a hash.Hash from bash.New, each Sum(p) returns p followed by the STB 34.101.77 digest of the bytes written since the last Reset, whatever the split into Write calls.", "quantifier": "all accepted sizes, all histories of Write/Sum/Reset", "why_tests_cant": "The tests write each message with one call; the failure depends on the split.", "anchors": ["hash/bash/digest.go: newDigest, digest.Write, Sum, checkSum, processBlock", "hash/bash/utils.go: BASHF"]}
{"id": "C81", "title": "GOST R 34.11-94 computes RFC 5831 over the supplied cipher for every call history", "statement": "For a hash.Hash from gost341194.New with any 8-byte block cipher constructor, every sequence of Write, Sum and Reset returns, without panic, from each Sum(p) the bytes p followed by the RFC 5831 digest (with zero initial value) of exactly the bytes written since the last Reset, however they were split, as long as fewer than 2^61 bytes are written between two Resets; beyond that the length block is taken modulo 2^64 bits.", "quantifier": "all ciphers with 8-byte blocks and 32-byte keys, all histories of Write/Sum/Reset with any byte strings", "why_tests_cant": "Splits and interleavings are unbounded, and the cipher is a parameter.", "anchors": ["hash/gost/gost341194/hash.go: digest.Write, Sum, checkSum, step, blockReverse, chkAdd", "hash/gost/gost341194/hash.go: New"]}
{"id": "C82", "title": "Streebog computes RFC 6986 for every call history and can be saved and restored", "statement": "For a hash.Hash of the Streebog package (256 or 512 bits), every sequence of Write, Sum and Reset returns from each Sum(p) the bytes p followed by the RFC 6986 digest of the bytes written since the last Reset, as long as fewer than 2^61 bytes are written between two Resets. MarshalBinary succeeds at any point and an object restored from it continues exactly as the saved one. The property users also expect, that UnmarshalBinary keeps its own copy of the input and that an accepted state can be used without panic, fails: the restored buffer aliases the caller's slice, and a saved state with 64 pending bytes is accepted and then Sum panics.", "quantifier": "all histories before and after the save, all messages, all saved byte strings", "why_tests_cant": "Splits, interleavings and save points are unbounded; aliasing shows only when the caller reuses the slice.", "anchors": ["hash/gost/gost34112012/hash.go: Hash.Write, Sum, Reset, MarshalBinary, UnmarshalBinary, g, e, l, s, p, add512bit"]}
{"id": "C83", "title": "GOST key trees return the uncached key whatever the history", "statement": "KDF of gost34112012256 is RFC 7836 KDF_GOSTR3411_2012_256 over any hash. For an ESPTree every sequence of Derive and DeriveCached calls with five-byte indices returns, without panic, exactly the key the three-level tree without cache gives for that index; any other index length panics. For a TLSTree the same should hold for every sequence number (RFC 9189 TLSTREE); it fails for a new tree whose first request is a non-zero number that all three masks map to zero: Derive(1) returns 32 zero bytes for every root key under five of the six predefined parameter sets. It also fails after the caller writes into the slice DeriveCached returned.", "quantifier": "all hashes with 32-byte digests, all root keys, masks, and histories of Derive/DeriveCached calls", "why_tests_cant": "Whether a cached key is served wrongly depends on the whole history of sequence numbers.", "anchors": ["hash/gost/gost34112012256/kdf.go: KDF", "hash/gost/gost34112012256/esptree.go: NewESPTree, ESPTree.DeriveCached, ESPTree.Derive", "hash/gost/gost34112012256/tlstree.go: NewTLSTree, TLSTree.DeriveCached, TLSTree.Derive"]}
{"id": "C84", "title": "PBKDF2 computes RFC 8018 for every password, salt, count and length", "statement": "pbkdf2.Key(password, salt, iter, keyLen, prf) returns for iter >= 1 and keyLen >= 0 the first keyLen bytes of T_1 || T_2 || ... of RFC 8018 over the given keyed hash (HMAC gives PBKDF2-HMAC); shorter keys are prefixes of longer ones. gost_pbkdf2.Key should return the PBKDF2-HMAC key and leave the caller's memory alone; it does so for passwords shorter than a hash block, outside the spare capacity of its arguments. It does not for passwords of a block or more, nor when the salt lies behind the password in one buffer: the salt is overwritten with zeros before use.", "quantifier": "all keyed hashes, passwords, salts, iteration counts, key lengths, and all heaps and slices", "why_tests_cant": "Lengths, counts and memory layouts are unbounded; tests use short separate literals.", "anchors": ["kdf/pbkdf2/pbkdf2.go: Key", "kdf/pbkdf2/prf.go: HmacPRF.NewHash", "kdf/gost_pbkdf2/gost_pbkdf2.go: Key"]}
{"id": "C85", "title": "PKCS #12 key derivation computes RFC 7292 for every input", "statement": "pbkdf.Key(newHash, u, v, salt, password, r, ID, size) returns, for every hash with u-byte digests, every block size v > 0, salt, password, purpose byte, size and r >= 1, exactly the bytes of RFC 7292 appendix B.2; shorter keys are prefixes of longer ones. Counts r < 1 should be rejected; they act as 1.", "quantifier": "all hashes, block sizes, salts, passwords, iteration counts, purpose bytes and sizes", "why_tests_cant": "The big-integer carry between blocks depends on data; tests fix a few passwords.", "anchors": ["kdf/pbkdf/pbkdf.go: Key, fillWithRepeats"]}
{"id": "C86", "title": "Counter, feedback and pipeline derivation compute SP 800-108", "statement": "kbkdf.CounterModeKey, FeedbackModeKey and PipelineModeKey return, for every keyed function, key, label, context, counter size of 0 to 8 bytes and length, the SP 800-108 key with the block number in that many bytes and the length in bits in its shortest form; other counter sizes panic. Requests with more blocks than the counter can number should fail; in counter mode the blocks repeat instead.", "quantifier": "all keyed functions, keys, labels, contexts, initial values, counter sizes, and lengths below 2^61", "why_tests_cant": "Counter carry, length forms and wrap-around occur at sizes no test reaches.", "anchors": ["kdf/kbkdf/kbkdf.go: CounterModeKey, FeedbackModeKey, PipelineModeKey, fillL, incCtr", "kdf/kbkdf/prf.go: hmacPRF.Sum, cmacPRF.Sum"]}
{"id": "C87", "title": "GOST key tree, prf+ and the SM2 derivation return their standards' values", "statement": "kdftree.Key returns the RFC 7836 KDF_TREE value for 1 to 255 digests and panics for every other length; it does so up to 254 digests, with 255 it never returns. gost_prfplus.Key returns RFC 7296 prf+ for every nonempty password and salt and every length, and an error for empty ones. smkdf.Key returns the GB/T 32918.4 value for every length under 2^32-1 digests and panics for others.", "quantifier": "all hashes, secrets, labels, seeds, salts and lengths", "why_tests_cant": "The failure lies at a length tests do not use; the loops are unbounded in the length.", "anchors": ["kdf/kdftree/kdftree.go: KDFTree, Key", "kdf/gost_prfplus/gost_prfplus.go: Key", "kdf/smkdf/smkdf.go: Key"]}
{"id": "C88", "title": "OpenPGP S2K computes RFC 4880", "statement": "pgp_s2k.Key returns, for every hash, password, salt, count and length, the RFC 4880 string-to-key value (hash i preloaded with i zeros, salt and password repeated up to the count, at least once), and panics for a count above one without salt. KeyWithTune with count 0 should choose a count and return; it never returns.", "quantifier": "all hashes, passwords, salts, counts and lengths, all timer behaviours", "why_tests_cant": "Repetition and number of passes are unbounded; non-termination cannot be tested.", "anchors": ["kdf/pgp_s2k/pgp_s2k.go: Key, KeyWithTune", "kdf/pgp_s2k/s2k_family.go: tune"]}
{"id": "C89", "title": "bcrypt_pbkdf arranges blocks and rounds as defined", "statement": "bcrypt_pbkdf.Key returns, for every password, salt of 1 to 2^20 bytes, rounds >= 1 and length up to 1024, the OpenBSD value: xor of the chained bcrypt hashes per block and byte p of the key taken from block p mod nb at position p / nb; everything else is an error.", "quantifier": "all passwords, salts, rounds and lengths, over any SHA-512 and bcrypt hash", "why_tests_cant": "The interleaving must be right for every number of blocks and rounds.", "anchors": ["kdf/bcrypt_pbkdf/bcrypt_pbkdf.go: Key"]}
{"id": "C90", "title": "EC-GDSA signatures verify, and verification decides as ISO 14888-3 says", "statement": "For every key pair, hash, message and random source, ecgdsa.SignToRS ends with an error of the random source or with a valid EC-GDSA signature that VerifyWithRS accepts. VerifyWithRS should accept exactly the valid pairs and return a verdict on every pair of integers; SignBytes and VerifyBytes should agree with it; exported private keys should import again.", "quantifier": "all curves of prime order, keys, hashes, messages, random streams, integers r and s, byte strings", "why_tests_cant": "Forged values such as r = q or s + q and random streams that cause retries are not in the vectors.", "anchors": ["pubkey/ecgdsa/ecgdsa.go: GenerateKey, NewPrivateKey, PrivateKeyTo, SignToRS, SignUsingKToRS, VerifyWithRS, SignBytes, VerifyBytes"]}
{"id": "C91", "title": "EC-KCDSA signatures verify, and verification decides as ISO 14888-3 says", "statement": "For every key pair, hash, message and random source, eckcdsa.SignToRS ends with an error of the random source or with a valid EC-KCDSA signature; VerifyWithRS has a verdict on all integers and accepts exactly the valid signatures with r not 0. Every signature SignToRS returns should be accepted, and SignBytes should never panic.", "quantifier": "all curves of prime order, keys, hashes, messages, random streams, integers r and s", "why_tests_cant": "Leading zeros of r and digests longer or shorter than the order depend on data.", "anchors": ["pubkey/eckcdsa/eckcdsa.go: SignToRS, SignUsingKToRS, VerifyWithRS, SignBytes, VerifyBytes"]}
{"id": "C92", "title": "EC-SDSA, EC-OSDSA and EC-FSDSA sign and verify as ISO 14888-3 says", "statement": "For every key pair, hash, message and random source the three Schnorr-type packages should return the standard's signature for the first random number it does not discard, and VerifyWithRS should accept exactly the valid signatures with a verdict on every input; VerifyBytes accepts exactly the encodings of valid signatures.", "quantifier": "all curves of prime order, keys, hashes, messages, random streams, integers and byte strings", "why_tests_cant": "Retries happen with negligible probability in tests; oversized r is not tested.", "anchors": ["pubkey/ecsdsa/ecsdsa.go, pubkey/ecosdsa/ecosdsa.go, pubkey/ecfsdsa/ecfsdsa.go: SignToRS, VerifyWithRS, SignBytes, VerifyBytes, GenerateKey, NewPrivateKey, PrivateKeyTo"]}
{"id": "C93", "title": "EC-RDSA signatures verify, and verification decides as ISO 14888-3 and RFC 7091 say", "statement": "ecrdsa.VerifyWithRS has a verdict on all integers, keys and messages and accepts exactly the valid signatures, in both byte orders of the digest. For every key pair and random source SignToRS ends, and its result should be a signature of the message that verifies.", "quantifier": "all curves of prime order, keys, hashes, messages, random streams, integers r and s", "why_tests_cant": "Retries and zero digests are not reached by tests.", "anchors": ["pubkey/ecrdsa/ecrdsa.go: SignToRS, SignUsingKToRS, VerifyWithRS, SignBytes, VerifyBytes"]}
{"id": "C94", "title": "BIP-340 signatures verify, and verification decides as BIP-340 says", "statement": "bip0340.VerifyWithRS and VerifyBytes accept exactly the signatures BIP-340 calls valid for the x-coordinate of the key, whatever the sign of y; every signature SignToRS or SignBytes makes, for every key pair, message and random source, is valid and accepted; BatchVerify accepts exactly when each signature is accepted on its own.", "quantifier": "all curves of prime order with opposite points sharing x, keys, hashes, messages, random streams, integers r and s, byte strings, batches", "why_tests_cant": "The test vectors fix key, message and nonce; zero s, oversized r and empty batches are not among them.", "anchors": ["pubkey/bip0340/bip0340.go: SignToRS, SignUsingKToRS, VerifyWithRS, SignBytes, VerifyBytes", "pubkey/bip0340/batch.go: BatchVerify", "pubkey/bip0340/utils.go: bip0340Hash, bip0340SetScalar"]}
{"id": "C95", "title": "GOST curve arithmetic is the group law", "statement": "gost Curve.Add, Double, ScalarMult and ScalarBaseMult compute the group law of the elliptic curve for all points and scalars, and Marshal and Unmarshal are inverse to each other, Unmarshal accepting only points of the curve.", "quantifier": "all curves over prime fields of order an odd prime, all points, all scalars, all byte strings", "why_tests_cant": "There are about 2^512 points and scalars; opposite points and the point at infinity are the cases tests omit.", "anchors": ["pubkey/gost/curve.go: Add, Double, add, Exp, ScalarMult, ScalarBaseMult, IsOnCurve", "pubkey/gost/marshal.go: Marshal, Unmarshal"]}
{"id": "C96", "title": "GOST R 34.10 signatures verify, and verification decides as RFC 7091 says", "statement": "gost.VerifyWithRS and Verify have a verdict on all inputs and accept exactly the valid signatures; for every key, digest and random source Sign and SignToRS end with the error of the source or a valid signature that is accepted.", "quantifier": "all curves, key pairs, digests, random streams, integers r and s, byte strings", "why_tests_cant": "Verification adds points with a formula that is wrong for equal and opposite points; random tests never meet them.", "anchors": ["pubkey/gost/gost.go: SignToRS, VerifyWithRS, PrivateKey.Sign, PublicKey.Verify"]}
{"id": "C97", "title": "GOST keys survive their encoding and the VKO key agreement agrees", "statement": "NewPrivateKey and PrivateKeyTo are inverse to each other, the public key of a key pair is d·G, and two parties obtain the same KEK, KEK2001, KEK2012256 and KEK2012512 from each other's public keys; no input makes them panic.", "quantifier": "all curves, key pairs, byte strings, user keying material, hash functions", "why_tests_cant": "Agreement must hold for every pair of keys and every UKM; multiples of the order are not tested.", "anchors": ["pubkey/gost/gost.go: newPrivateKey, GenerateKey, NewPrivateKey, PrivateKeyTo", "pubkey/gost/vko.go: NewUKM, KEK, KEK2001, KEK2012256, KEK2012512"]}
{"id": "C98", "title": "Conversion between the Weierstrass and Edwards forms of GOST curves is a bijection of the curves", "statement": "XY2UV and UV2XY compute the formulas of RFC 7836, are inverse to each other wherever they are defined, and a point satisfies the Weierstrass equation exactly if its image satisfies the Edwards equation.", "quantifier": "all prime fields with p > 3, coefficients e and d, coordinates x, y, u, v outside the exceptional points", "why_tests_cant": "Tests convert the base points of the listed curves only.", "anchors": ["pubkey/gost/edwards.go: EdwardsST, XY2UV, UV2XY"]}
{"id": "C99", "title": "ElGamal decryption inverts encryption, and the homomorphic operation multiplies plaintexts", "statement": "elgamal.Decrypt and DecryptLegacy return the plaintext for every ciphertext made by Encrypt and EncryptLegacy with the matching key, for every message short enough and every random source; DecryptBytes does the same for EncryptBytes; the product of two ciphertexts (HomomorphicEncTwo, HommorphicEncMultiple) decrypts to the product of the plaintexts modulo the prime.", "quantifier": "all prime moduli, key pairs, messages, random streams, ciphertext pairs, lists of ciphertexts", "why_tests_cant": "Keys, messages and the random exponent range over numbers of thousands of bits; a zero ciphertext component and values at the modulus are not met by chance.", "anchors": ["pubkey/elgamal/elgamal.go: Encrypt, Decrypt, EncryptLegacy, DecryptLegacy, EncryptBytes, DecryptBytes", "pubkey/elgamal/elgamal.go: HomomorphicEncTwo, HommorphicEncMultiple"]}
{"id": "C100", "title": "ElGamal signatures verify, and verification decides by the ElGamal equation", "statement": "elgamal.Verify accepts exactly the pairs with 0 < r < p, 0 < s < p-1 and g^m = y^r r^s; every signature that Sign or SignBytes makes is valid and accepted; the generator of GenerateKey has the prime order q.", "quantifier": "all prime moduli above 3, key pairs, hashes, random streams, integers r and s, byte strings", "why_tests_cant": "The pairs at the ends of the ranges and the nonces with s = 0 are a negligible share of all inputs but decide soundness.", "anchors": ["pubkey/elgamal/elgamal.go: Sign, Verify, SignBytes, VerifyBytes, GenerateKey"]}
{"id": "C101", "title": "EGDSA signatures verify, and verification decides by the ElGamal equation", "statement": "egdsa.Verify accepts exactly the pairs with 0 < r < p, 0 < s < p-1 that satisfy the ElGamal equation for the number 2 + (hash mod p-3), and every signature that Sign makes, for every random source including one that yields the exponent -1, is valid and accepted.", "quantifier": "all prime moduli above 3, key pairs, hashes, random streams, integers r and s", "why_tests_cant": "The exponent -1 and the ends of the ranges have negligible probability.", "anchors": ["pubkey/egdsa/egdsa.go: Sign, Verify"]}
{"id": "C102", "title": "LM-OTS one-time signatures verify, a key signs once, and encodings round-trip", "statement": "lms.LmotsPrivateKey.Sign returns a signature that Verify accepts under the key's public key for every message, seed, identifier and random source; a key gives at most one signature over all histories of calls; verification decides by RFC 8554 algorithm 4b; decoding of signatures accepts exactly the encodings and never panics; public keys round-trip.", "quantifier": "all parameter sets meeting RFC 8554, identifiers, seeds, messages, nonces, byte strings, histories of Sign calls", "why_tests_cant": "Messages, seeds and signature bytes are unbounded, and single use is a statement about every history.", "anchors": ["pubkey/lms/lmots.go: NewLmotsPrivateKeyFromSeed, Sign, SignToSignature, Verify, VerifyWithSignature, NewLmotsSignatureFromBytes, NewLmotsPublicKeyFromBytes", "pubkey/lms/lmots_params.go: LMOTS parameters", "pubkey/lms/utils.go: Expand, Coefs, Cksm"]}
{"id": "C103", "title": "A forged LM-OTS signature yields a collision or a preimage", "statement": "Given two accepted LM-OTS signatures under one key for different messages or nonces, the hash inputs of the two verifications contain a collision, or the second discloses an element of a chain that the first did not; no digit string with its checksum dominates another.", "quantifier": "all RFC 8554 parameter sets, public keys, messages, nonces, signatures", "why_tests_cant": "It is a statement about every possible forgery.", "anchors": ["pubkey/lms/lmots.go: VerifyWithSignature, recoverPublicKey", "pubkey/lms/utils.go: Expand"]}
{"id": "C104", "title": "LMS signatures verify under the Merkle root, and keys and signatures round-trip", "statement": "The LMS public key is the root of the Merkle tree over the one-time public keys; Sign at every index below 2^h returns a signature carrying the index that Verify accepts, and advances the index by exactly one; Verify decides by RFC 8554 algorithm 6a; signature, public key and private key decoding accept exactly the encodings and restore the key with its tree and index.", "quantifier": "all parameter sets with height at most 30, identifiers, seeds, indices, messages, random sources, byte strings", "why_tests_cant": "Trees have up to 2^25 leaves and signature bytes come from an adversary.", "anchors": ["pubkey/lms/lms.go: GenerateKeyFromSeed, GeneratePKTree, SignToSignature, Verify, VerifyWithSignature, NewSignatureFromBytes, NewPublicKeyFromBytes, NewPrivateKeyFromBytes", "pubkey/lms/lms_params.go: LMS parameters"]}
{"id": "C105", "title": "Over every history an LMS key uses each index once and signs exactly 2^h messages", "statement": "For every sequence of Sign calls and save/restore of the private key, the key answers the first 2^h signing calls whose random source works and no other; the indices are 0, 1, 2, ... each once; each signature verifies.", "quantifier": "all histories of Sign and save/restore, all parameter sets, seeds, messages, random sources", "why_tests_cant": "It ranges over all histories, including those that exhaust trees of 2^25 leaves.", "anchors": ["pubkey/lms/lms.go: Sign, SignToSignature, ToBytes, NewPrivateKeyFromBytes"]}
{"id": "C106", "title": "An accepted LMS signature is one of the key's one-time signatures, or a collision", "statement": "Every byte string that Verify accepts under the public key of a key made from a seed encodes a signature with an index below 2^h whose one-time part is valid under that one-time public key, or the hash inputs of the verification and of the tree contain a collision.", "quantifier": "all byte strings, messages, keys, registries of parameters", "why_tests_cant": "It is a statement about every possible forgery.", "anchors": ["pubkey/lms/lms.go: Verify, VerifyWithSignature, GeneratePKTree"]}
{"id": "C107", "title": "HSS signatures verify over every history, and verification decides by the chain of levels", "statement": "For a key with one to five levels made by GenerateHSSKey, over every history of Sign and save/restore, every signature verifies under the HSS public key and the key answers the first 2^h signing calls, h the height of the lowest tree; Verify answers true exactly on chains of valid LMS signatures from the public key to the message.", "quantifier": "all lists of parameters, random sources, messages, byte strings, histories", "why_tests_cant": "Histories and adversarial byte strings are unbounded.", "anchors": ["pubkey/lms/hss.go: GenerateHSSKey, Sign, Verify, ToBytes, NewHSSPrivateKeyFromBytes"]}
{"id": "C108", "title": "SDSA signatures: verification decides the scheme and signatures verify", "statement": "sdsa.Verify returns the verdict of the scheme (r is the hash of w and the message with w·Y^r = G^s) for every public key, message and pair of integers; SignUsingK returns a signature that Verify accepts, or an error; VerifyBytes never panics and accepts exactly the fixed-length encodings of valid signatures; SignBytes round-trips; GenerateKey gives Y = G^X with 0 < X < Q or the error of the random source.", "quantifier": "all parameters with G^Q = Y^Q = 1 mod P, keys, hash functions, messages, numbers k, integers r and s, byte strings and random sources", "why_tests_cant": "The group, the message, the signature bytes and the random source are unbounded, and the failing retry is reached with probability near 1/Q only.", "anchors": ["pubkey/sdsa/sdsa.go: GenerateKey, Sign, SignUsingK, Verify, SignBytes, VerifyBytes"]}
{"id": "C109", "title": "KCDSA signatures verify, verification decides the scheme, and key derivation is the standard's", "statement": "kcdsa.Verify never panics and returns the verdict of the scheme for every key, message and pair of integers; Sign returns a signature that Verify accepts, or an error; VerifyBytes accepts exactly the encodings of valid signatures; GenerateKey gives Y^X = G; the pseudorandom function is the low bits of the concatenated hashes and GenerateX is PRF((PRF(upri)+xkey) mod 2^B) mod Q.", "quantifier": "all parameters with G^Q = Y^Q = 1 mod P, keys, hash functions, messages, integers, byte strings, bit lengths and random sources", "why_tests_cant": "Unbounded groups, messages, seeds and bit lengths; carries, truncation and masking have boundary cases that samples miss.", "anchors": ["pubkey/kcdsa/kcdsa.go: GenerateKey, Sign, Verify, SignBytes, VerifyBytes", "pubkey/kcdsa/utils.go: RightMost, ReadBits, GenerateX, GenerateY, FermatInverse", "pubkey/kcdsa/ppgf.go: Generate"]}
{"id": "C110", "title": "Rabin encryption round-trips, decryption never panics, and key generation", "statement": "rabin: for every key that is the product of two different primes that are 3 modulo 4, Decrypt(Encrypt(m)) = m for every plaintext (unless two byte strings with equal hash appear); Decrypt never panics on any bytes and returns only plaintexts with the length and hash the ciphertext carries; GenerateKey returns two different primes that are 3 modulo 4, or an error.", "quantifier": "all keys, plaintexts, ciphertext byte strings and random sources", "why_tests_cant": "The plaintext, the primes and the ciphertext bytes are unbounded; which of the four roots is chosen depends on all of them, and pseudoprimes are too rare for samples.", "anchors": ["pubkey/rabin/rabin.go: PublicKey.Encrypt, PrivateKey.Decrypt, GenerateKeyWithBitLength", "pubkey/rabin/utils.go: squareAndMultiple, extendedEuclideanAlgorithm, getSquareRoot, decrypt, hashEqual, isaPrimeNumber, millerRabinPrimalityTest, squareAndMultiplyWithoutMod, getprimeNumber"]}
{"id": "C111", "title": "Diffie-Hellman: both sides get the same secret, peers' keys are checked, and the groups are sound", "statement": "dh, ecdh, curve25519: for every group and two key pairs made in it, ComputeSecret with the other side's public key gives both sides the same secret; GenerateKey delivers a key pair or the error of the random source; Check accepts exactly the keys in range (dh) or the encodings of points (ecdh), and ComputeSecret does not fail on keys that passed it; the built-in groups have prime moduli of the size their name says.", "quantifier": "all groups, key pairs, peer keys as byte strings or integers, and random sources", "why_tests_cant": "Agreement must hold for every pair of exponents and every group, rejection for every malformed peer key; a wrong digit in a modulus of thousands of bits is not visible to a round-trip test.", "anchors": ["pubkey/dh/dh/dh.go: GenerateKeyWithGroup, GeneratePublicKey, ComputeSecret, Check", "pubkey/dh/dh/group.go: GetMODGroup", "pubkey/dh/ecdh/ecdh.go: GenerateKey, GeneratePublicKey, ComputeSecret, Check, unmarshal", "pubkey/dh/curve25519/curve25519.go: GenerateKey, GeneratePublicKey, ComputeSecret"]}
{"id": "C112", "title": "ECIES: decryption inverts encryption, rejects everything else, and never panics", "statement": "ecies: for every curve, parameter set, key pair, message and shared information, Encrypt gives a ciphertext that Decrypt turns back into the message; Decrypt gives a message only for an encoding of a point followed by an encrypted message and its tag under the derived key, an error for everything else, and never panics; the built-in parameter sets work.", "quantifier": "all curves, keys, ephemeral keys, initialisation vectors, messages, shared information and ciphertext byte strings", "why_tests_cant": "Messages, shared information and forged ciphertexts are unbounded; short authenticated ciphertexts and one of five parameter sets are easily missed by samples.", "anchors": ["pubkey/ecies/ecies.go: Encrypt, PrivateKey.Decrypt, PrivateKey.GenerateShared, concatKDF, incCounter, messageTag, symEncrypt, symDecrypt, ECIES_AES128_SHA256, ECIES_AES192_SHA384, ECIES_AES256_SHA256, ECIES_AES256_SHA384, ECIES_AES256_SHA512"]}
{"id": "C113", "title": "Binary elliptic curves compute the group law", "statement": "elliptic/base_elliptic: for every irreducible field polynomial and curve y² + xy = x³ + Ax² + B with B not zero, and all points, Add, Double and ScalarMult give the representation of the sum, double and multiple in the group of the curve; IsOnCurve decides the equation of the curve for all numbers; nothing panics.", "quantifier": "all binary fields, curves, points and scalars", "why_tests_cant": "Fields and scalars are unbounded; results with a coordinate zero or at infinity, where the code panics, are too rare to be met by samples on real curves.", "anchors": ["elliptic/base_elliptic/curve.go: IsOnCurve, Add, add, Double, double, ScalarMult, ScalarBaseMult", "elliptic/base_elliptic/int.go: Mul, Mod, DivMod, _extended_gcd, _bf_div"]}
{"id": "C114", "title": "Koblitz curves over prime fields compute the group law", "statement": "elliptic/bitcurves: for every curve y² = x³ + B over a prime field and all points, Add, Double and ScalarMult give the sum, double and multiple in the group of the curve, IsOnCurve decides the equation, GenerateKey returns key pairs, Unmarshal inverts Marshal and accepts only points; nothing panics. The base points of the four named curves have the order given.", "quantifier": "all prime fields, curves, points, scalars and random sources", "why_tests_cant": "Exceptional cases of the formulas (equal, opposite points, infinity) have negligible probability in samples.", "anchors": ["elliptic/bitcurves/params.go: IsOnCurve, Add, addJacobian, Double, doubleJacobian, affineFromJacobian, ScalarMult, ScalarBaseMult, GenerateKey, Marshal, Unmarshal", "elliptic/bitcurves/bitcurve_curves.go: initS160, initS192, initS224, initS256"]}
{"id": "C115", "title": "The constants of the named curves are right", "statement": "For every named curve of elliptic/secp, weierstrass, nums, tom, frp256v1, brainpool, bign, nist, secg, wtls, x962 and x963 the base point is a reduced point of the curve, of the order given, and the size is that of the field; the maps between the brainpool r1 and t1 curves are inverse isomorphisms that take base point to base point, and so are those of the nums t1 and d1 curves.", "quantifier": "all 95 named curves; all points for the maps", "why_tests_cant": "The packages test a few of the curves; that a base point has the order given means a statement about the whole group, and that the maps are inverse is one about all points.", "anchors": ["elliptic/secp/secp_curves.go", "elliptic/weierstrass/weierstrass_curves.go", "elliptic/nums/nums_curves.go", "elliptic/nums/rcurve.go: toTwisted, fromTwisted", "elliptic/tom/tom_curves.go", "elliptic/frp256v1/frp256v1.go", "elliptic/brainpool/brainpool.go", "elliptic/brainpool/rcurve.go: toTwisted, fromTwisted", "elliptic/bign/bign_curves.go", "elliptic/nist/nist_curves.go", "elliptic/secg/secg_curves.go", "elliptic/wtls/wtls_curves.go", "elliptic/x962/x962_curves.go", "elliptic/x963/x963_curves.go"]}
{"id": "C116", "title": "Fernet tokens", "statement": "fernet: EncryptAndSign makes the token of the Fernet specification (version 0x80, time, IV, AES-CBC of the padded message, HMAC-SHA256 over it, URL-safe base64); VerifyAndDecrypt with a list of keys returns the message exactly for tokens whose HMAC verifies under a key and whose time lies in the window, gives back what was encrypted, and never panics. Encoded keys decode to themselves.", "quantifier": "all keys, key lists, messages, IVs, times, lifetimes and token byte strings; every 16-byte block cipher and 32-byte hash", "why_tests_cant": "Forged, truncated and padded tokens are an unbounded set; the failing cases need authenticated malformed tokens or lists of related keys, which samples do not contain.", "anchors": ["fernet/fernet.go: EncryptAndSign, VerifyAndDecrypt, gen, verify, pad, unpad, b64enc, b64dec", "fernet/key.go: DecodeKey, DecodeKeys, Encode, Generate"]}
{"id": "C117", "title": "FF1 format-preserving encryption", "statement": "cipher/fpe/ff1: NewCipher accepts AES keys, radices 2 to 62 and tweaks within the maximum; Encrypt computes FF1 of NIST SP 800-38G on strings of numerals, the result has the same length and radix; Decrypt inverts Encrypt and Encrypt inverts Decrypt, for every accepted string; no call panics.", "quantifier": "all radices, string lengths, strings, tweaks, block functions; all interleavings of two calls on one cipher", "why_tests_cant": "Number of strings, lengths and tweaks is unbounded; padding of numbers with leading zeros and byte lengths change with radix and length.", "anchors": ["cipher/fpe/ff1/ff1.go: NewCipher, EncryptWithTweak, DecryptWithTweak, ciph, prf"]}
{"id": "C118", "title": "FF3 format-preserving encryption", "statement": "cipher/fpe/ff3: NewCipher accepts AES keys, radices 2 to 62 and 8-byte tweaks and does not change its arguments; Encrypt computes FF3 of NIST SP 800-38G on strings of numerals for the lengths of the standard; Decrypt and Encrypt invert each other for every accepted string; signs are refused; no call panics.", "quantifier": "all radices, lengths, strings, tweaks and block functions", "why_tests_cant": "Number of strings, lengths and tweaks is unbounded.", "anchors": ["cipher/fpe/ff3/ff3.go: NewCipher, EncryptWithTweak, DecryptWithTweak, rev, revB"]}
{"id": "C119", "title": "Hash_DRBG follows SP 800-90A over every history of calls", "statement": "For every hash function with a fixed digest size, every instantiation input and every sequence of Generate and Reseed calls, the Hash_DRBG returns the bits, the errors and the reseed requests that the SP 800-90A Hash_DRBG state machine returns: V, C and the reseed counter are updated by the standard's formulas, additional input is mixed in the standard's order, and a request after the reseed interval is refused until a reseed. The GM variant agrees with its specification for requests of at most one digest.", "quantifier": "every hash function, seed material, and every finite history of Generate/Reseed calls with any buffer length and additional input", "why_tests_cant": "Known answer tests replay a handful of short call sequences; the state after n calls depends on the whole history, on carries in the seedlen-wide addition and on the reseed counter.", "anchors": ["rand/drbg/hash.go: NewHash, NewNISTHash, NewGMHash, Reseed, Generate, hashgen", "rand/drbg/utils.go: hashDF, drbg_add, drbg_add1"]}
{"id": "C120", "title": "HMAC_DRBG follows SP 800-90A over every history of calls", "statement": "For every hash function, every instantiation input and every sequence of Generate and Reseed calls, the HMAC_DRBG returns exactly the output, errors and reseed requests of the SP 800-90A HMAC_DRBG: Key and V are updated by HMAC_DRBG_Update with and without provided data, output blocks are concatenated and truncated to the request, and the reseed counter gates requests.", "quantifier": "every hash function, seed material and every finite history of calls", "why_tests_cant": "Vectors fix a few histories; the claim covers every interleaving of reseed, empty and non-empty additional input and every request length including partial last blocks.", "anchors": ["rand/drbg/hmac.go: NewHMAC, NewNISTHmac, NewGMHmac, Reseed, Generate, update"]}
{"id": "C121", "title": "CTR_DRBG follows SP 800-90A over every history of calls", "statement": "For every block cipher, key length and history of Generate and Reseed calls, the CTR_DRBG with derivation function never panics and its output, errors and reseed requests are those of SP 800-90A CTR_DRBG: Block_Cipher_df on the seed material and on additional input, CTR_DRBG_Update, and counter-mode output truncated to the request.", "quantifier": "every block cipher family, key length, seed material and finite history of calls", "why_tests_cant": "Whether the derivation function pads correctly depends on the length of each input modulo the block size, and counter wrap-around depends on V; test vectors use one or two input lengths.", "anchors": ["rand/drbg/ctr.go: NewCTR, NewNISTCtr, NewGMCtr, Reseed, Generate, update, bcc, blockCipherDF", "rand/drbg/utils.go: drbg_add1"]}
{"id": "C122", "title": "BER to DER conversion", "statement": "Ber2der turns every BER encoding of a value into the DER encoding of the same value, leaves DER unchanged, is idempotent, refuses what is not BER with an error, never panics and never runs forever, and its result is not larger than a small multiple of its input.", "quantifier": "every octet string; every value tree of any depth and width; every choice of definite, long-form and indefinite lengths", "why_tests_cant": "The encodings of one value are infinitely many and nest to any depth; the panics need inputs cut at one exact place, and the exponential growth needs overlapping elements no sample certificate contains.", "anchors": ["ber/ber.go: Ber2der, readObject, isIndefiniteTermination, EncodeTo, encodeLength, marshalLongLength, lengthLength"]}
{"id": "C123", "title": "passhash9 strings", "statement": "GenerateHash makes a string for every password with every supported algorithm and work factor; CompareHash accepts a string with a password exactly when it is the one canonical spelling of a header, salt and PBKDF2 value of that password; so the right password is always accepted, another one only if PBKDF2 collides, and no stored string or password makes either call panic.", "quantifier": "every password, random stream, work factor and algorithm number; every stored string; every family of hash functions and CMAC of fixed sizes", "why_tests_cant": "Acceptance must be decided for every byte string and every password; the panics need a stored work factor above the limit or a password outside the key sizes of one of five algorithms.", "anchors": ["passhash/passhash9/passhash9.go: GenerateHash, CompareHash, GetPbkdfPRF, IsAlgSupported", "kdf/pbkdf2/prf.go: CmacPRF.NewHash, HmacPRF.NewHash", "kdf/pbkdf2/pbkdf2.go: Key"]}
{"id": "C124", "title": "Argon2 password strings", "statement": "The salted-hash calls of argon2 and argon2fmt give a string exactly for a non-empty password, a known type, good options and a working random source; comparing accepts such a string with a password exactly when Argon2 gives the same key for the stored salt and parameters; the string is always salted; no stored string makes a comparison panic and no changed string is accepted.", "quantifier": "every password, type, option set and random stream; every stored string; every Argon2 function", "why_tests_cant": "All parameter values, salts and stored strings are covered, including those of an attacker who edits the stored string and of a failing random source.", "anchors": ["passhash/argon2fmt/argon2fmt.go: GenerateSaltedHash, GenerateSaltedHashWithOpts, CompareHashWithPassword", "passhash/argon2/argon2.go: GenerateSaltedHash, GenerateSaltedHashWithOpts, CompareHashWithPassword, generateSalt", "kdf/argon2/argon2.go: deriveKey (its panics)"]}
{"id": "C125", "title": "JKS key stores", "statement": "After any calls on a new store, the getters return the last key or certificate accepted under each name with the date of the first; saving and loading with the same password gives the same store (dates to the millisecond); a file loads exactly if it is a well-formed body followed by its keyed hash; a protected key opens to its plaintext with its password and with no other unless SHA-1 collides; nothing read makes the program panic.", "quantifier": "every history of Add calls; every password, name, key, certificate chain and date; every input file; every SHA-1 function and ASN.1 wrapping with an inverse", "why_tests_cant": "Histories, file contents and field lengths are unbounded; the failures need a length field with the top bit set, a name of 65536 bytes or a protected key shorter than 40 bytes.", "anchors": ["jceks/jks.go: NewJKS, LoadJksFromBytes", "jceks/jks_encode.go: AddPrivateKeyBytes, AddEncodedPrivateKeyBytes, AddTrustedCertBytes, Marshal", "jceks/jks_decode.go: Parse, parsePrivateKey, parseTrustedCert and the getters", "jceks/jks_encryptkey.go: jksEncryptKey, jksDecryptKey", "jceks/binary.go", "jceks/jks_utils.go"]}
{"id": "C126", "title": "JCEKS key stores", "statement": "After any calls on a new store, saving it in whatever order the map is visited and loading the result with the same password gives a store whose getters return, under every name, the key, certificate or secret of the last call for that name; a file loads exactly if it is a well-formed body followed by its keyed hash (no hash is checked for the empty password); data encrypted with a password is decrypted with it; the getters of a store show what was added to it; saving a loaded store keeps its entries; every failure to save is reported.", "quantifier": "every history of Add calls; every map order; every password, name, key, certificate chain, salt and date; every input file; every hash and cipher of the right sizes and every ASN.1 wrapping with an inverse", "why_tests_cant": "Histories, map orders and file contents are unbounded; whether a lost error shows depends on the random order of map iteration.", "anchors": ["jceks/jceks.go: NewJCEKS, LoadJceksFromBytes", "jceks/jceks_encode.go: AddPrivateKeyBytes, AddTrustedCertBytes, AddSecretKey, Marshal", "jceks/jceks_decode.go: Parse and the getters", "jceks/jceks_utils.go: EncodeData, DecodeData, getPreKeyedHash", "jceks/cipher_blockcbc.go: encrypt, decrypt", "jceks/cipher_key.go: derivedKey"]}
{"id": "C127", "title": "BKS key stores", "statement": "After any calls on a new store the getters return under every name what the last call added, with its certificate chain and date; saving with version 1 or 2 in whatever map order and loading with the same password gives the same contents, sealed keys opening with their own password; a file loads exactly if it is well-formed with distinct names and carries the MAC under the password; without the password no file can be made that loads; saving a loaded store keeps its sealed keys under their passwords; nothing read makes the program panic.", "quantifier": "every history of Add calls; every map order, salt, iteration count, password, name, key, chain and date; every input file; every hash of 20 bytes, 8-byte block cipher and UTF-16 encoder", "why_tests_cant": "Histories, orders and contents are unbounded; the losses appear only when a loaded store is saved again.", "anchors": ["jceks/bks.go: NewBKS, LoadBksFromBytes", "jceks/bks_encode.go: AddCertBytes, AddKeyPrivateBytes, AddKeyPublicBytes, AddKeySecretBytes and the WithPassword variants, AddSecretBytes, Marshal", "jceks/bks_decode.go: Parse, loadEntries and the getters", "jceks/bks_entry.go: Decrypt, Encrypt, Recover", "jceks/cipher_key.go: derivedKeyWithPbkdf, derivedHmacKey"]}
{"id": "C128", "title": "UBER key stores", "statement": "Saving a store built by any calls and loading the result with the same password gives the same contents; a file loads exactly if its payload decrypts to well-formed entries with distinct names followed by their hash; every other file is an error, not a panic.", "quantifier": "every history, map order, salt, iteration count and password; every input file; every hash of 20 bytes and block cipher", "why_tests_cant": "The panic needs a payload that decrypts, with the password used, to fewer than 20 bytes.", "anchors": ["jceks/uber.go: LoadUberFromBytes", "jceks/uber_encode.go: Marshal", "jceks/uber_decode.go: Parse"]}
{"id": "C129", "title": "SM2 signatures: what is signed verifies, and nothing else does", "statement": "For every key pair, message, identity and random source, a signature returned by Sign (or SignBytes / SignASN1, in either encoding) is accepted by Verify under the matching public key for that message and identity; Verify accepts a pair (r, s) exactly when the equation of the standard holds with 1 <= r, s < n. Keys that are generated, exported and imported again are the same key; public key octets are accepted exactly when they are the standard encoding of a point; and the identity value binds the identity and the public key.", "quantifier": "every curve group of prime order with coordinates, every key, nonce, message, identity, hash function and byte string given as a signature or key", "why_tests_cant": "The equation must hold for all keys and nonces, including the rare ones (r = 0, d = n-1, r + k = n) that random tests never meet.", "anchors": ["gm/sm2/sm2.go: Sign, SignBytes, SignASN1, SignUsingK, Verify, VerifyBytes, VerifyWithRS, GenerateKey, NewPrivateKey, NewPublicKey, CalculateZA", "gm/sm2/sm2.go: signUsingK, verify, calculateZA, calculateHash"]}
{"id": "C130", "title": "SM2 encryption: round trip, and exactly which inputs decrypt", "statement": "For every key pair, message, layout (C1C3C2 or C1C2C3), encoding (octets or ASN.1) and random source, Decrypt returns the message that Encrypt was given; the octet form is that of the standard; and Decrypt succeeds on an octet string exactly when it is the standard's ciphertext, under this key, of the message it returns.", "quantifier": "every curve group, key, nonce, random source, message (of a length the key derivation takes), layout, encoding, hash, and every byte string given to Decrypt", "why_tests_cant": "Whether a manipulated ciphertext is accepted, or makes the program panic, depends on all byte strings; the all-zero key stream and the neutral point are never met by random tests.", "anchors": ["gm/sm2/sm2.go: Encrypt, EncryptASN1, EncryptUsingK, Decrypt, DecryptASN1", "gm/sm2/marshal.go: marshalCipherBytes, unmarshalCipherBytes, marshalCipherASN1, unmarshalCipherASN1"]}
{"id": "C131", "title": "SM2 key exchange: both sides derive the same key and confirm each other", "statement": "For all key pairs, identities and ephemeral numbers, the initiator and the responder derive the same key, which is that of the standard; each accepts the confirmation of the other and no other non-empty one; a point off the curve is an error. The one-call form gives both sides the same key and confirmations.", "quantifier": "every curve group, key pair, identity, ephemeral number, key length, and every point and confirmation received", "why_tests_cant": "Agreement is an algebraic identity over all keys and ephemeral numbers; the neutral shared point and coordinates beginning with a zero byte are too rare to be met.", "anchors": ["gm/sm2/keyexchange.go: NewKeyExchange, Init, Respond, ConfirmResponder, ConfirmInitiator", "gm/sm2/key_exchange.go: KeyExchangeA, KeyExchangeB, keXHat"]}
{"id": "C132", "title": "The stream ciphers XOR one key stream, whatever the calls", "statement": "For Rabbit, Trivium, HC-128, HC-256, Panama, KCipher-2 and Salsa20: after NewCipher, the outputs of any sequence of XORKeyStream calls are the concatenated inputs XORed with one key stream that depends only on the key and the IV, wherever the data is cut; a call changes nothing but the first len(src) bytes of dst, and panics exactly when dst is shorter than src or the two overlap in part; a second object made from the same key and IV therefore decrypts. The limits are real: Panama leaves dst untouched in a call of 2^31 to 2^32 bytes, and KCipher-2 copies the plaintext to dst whenever the two buffers are distinct. Salsa20 wraps at byte 2^64 of its counter, ignores the last 8 of the 16 nonce bytes it asks for, and goes on reading the caller's nonce slice.", "quantifier": "every key and IV, every sequence of calls, every memory and pair of buffers", "why_tests_cant": "the tests encrypt one short buffer in one call; the cuts, positions, aliasing and lengths are unbounded, and the KCipher-2 test only uses one buffer for both arguments", "anchors": ["cipher/rabbit/rabbit.go NewCipher, XORKeyStream", "cipher/trivium/trivium.go NewCipher, XORKeyStream", "cipher/hc/hc.go NewCipher, XORKeyStream", "cipher/panama/panama.go NewCipher, XORKeyStream", "cipher/kcipher2/kcipher2.go NewCipher, XORKeyStream", "cipher/salsa20/salsa20.go NewCipher, NewCipherWithCounter, XORKeyStream"]}
{"id": "C133", "title": "Trivium, HC, Panama and KCipher-2 are the published ciphers", "statement": "The key stream of NewCipher's object is that of the published algorithm, for every key and IV and at every position: Trivium (eSTREAM), HC-128 and HC-256 (Wu), Panama (Daemen and Clapp), KCipher-2 (RFC 7008, with the tables replaced by the field arithmetic they tabulate).", "quantifier": "every key and IV, every position of the key stream", "why_tests_cant": "test vectors fix a few keys and the first bytes; the bit-packed Trivium, the circular buffers of HC and Panama and the tables of KCipher-2 must agree with the definitions everywhere", "anchors": ["cipher/trivium/trivium.go triviumGenerateBit, triviumGenerateByte, expandKey", "cipher/hc/hc128.go", "cipher/hc/hc256.go", "cipher/panama/panama.go pan_pull, pan_push", "cipher/kcipher2/kcipher2.go next, stream", "cipher/kcipher2/utils.go subK2", "cipher/kcipher2/sbox.go"]}
{"id": "C134", "title": "Rabbit is not RFC 4503, and distinct IVs can share a key stream", "statement": "Rabbit with key and IV should give the key stream of RFC 4503, and different IVs of one key different key streams. Neither holds: for the zero key (with or without IV) the first byte differs from the RFC's, because the counter additions are subtractions whose borrow is stored in place of the counter; after every step all eight counters are 0 or 1, and for every key there are two IVs with identical key streams at all positions.", "quantifier": "every key (collision), every state (counters), concrete keys (difference from the RFC)", "why_tests_cant": "the repository's vectors were produced by the code itself; a collision of IVs exists for every key and cannot be found by sampling", "anchors": ["cipher/rabbit/rabbit.go nextState, setupIV, expandKey", "cipher/rabbit/utils.go"]}
{"id": "C135", "title": "Grain-128AEAD seals, opens and streams as specified", "statement": "For every 16-byte key, 12-byte nonce, plaintext and additional data, and whatever Seal and Open calls the AEAD object was used for before, Seal appends the Grain-128AEAD ciphertext and tag to dst; Open appends the plaintext of exactly the ciphertexts Seal makes under that nonce and additional data and refuses all others, leaving only zeros where the plaintext would have gone; Open of any object for the key undoes Seal of any other. NewStreamCipher gives a stream cipher whose key stream is the encryption half of the Grain-128AEAD pre-output, wherever the data is cut. Two parts are false: from 128 bytes of additional data on, its length is not encoded, so the result is not Grain-128AEAD and bytes can be moved from the plaintext to the additional data without the key; and the stream cipher does not check the length of the nonce.", "quantifier": "every key, nonce, plaintext, ciphertext and additional data below 2^63 bytes, every history of calls on the object, every memory and placement of dst", "why_tests_cant": "the test vectors have at most a few bytes of additional data and one call per object; the equivalence of the 32-bit-parallel code with the bit-level specification and the refusal of forged ciphertexts range over unbounded data", "anchors": ["cipher/grain/grain.go NewCipher, Seal, Open, encrypt, decrypt, init", "cipher/grain/utils.go getkb, getmb, encode, shift, xor", "cipher/grain/stream.go NewStreamCipher, XORKeyStream"]}
{"id": "C136", "title": "The stateful ciphers WAKE and Spritz decrypt what they encrypt", "statement": "For WAKE and Spritz, whose Encrypt and Decrypt change the object: an object made from the same key (and IV) turns the ciphertexts of any sequence of calls back into the plaintexts when it gets them call by call; WAKE with calls of whole words computes the WAKE recursion on the concatenation; Spritz without an IV adds one key stream to the message wherever it is cut, and its table stays a permutation of the 256 bytes after any key, IV and history. It is false for one object used in both directions, for WAKE when the message is cut differently on the two sides, and for WAKE calls of 2^31 bytes or more, which copy the plaintext.", "quantifier": "every key and IV, every sequence of calls, every memory and pair of buffers", "why_tests_cant": "the tests encrypt one short buffer with one object and decrypt it with a new one; histories, cuts and lengths are unbounded", "anchors": ["cipher/wake/wake.go NewCipher, Encrypt, Decrypt", "cipher/spritz/spritz.go NewCipher, NewCipherWithIV, Encrypt, Decrypt"]}
{"id": "C137", "title": "Encrypted PKCS #1 PEM keys are those of OpenSSL and open with their password", "statement": "The key of a DEK-Info PEM block is the OpenSSL EVP_BytesToKey chain over MD5 of password and the first 8 IV bytes; encrypting writes Proc-Type and DEK-Info headers with the cipher's name and the IV in hex, and a body that is the padded data under that key, mode and IV; decrypting with the same password returns the data for all 28 cipher names; every other block is refused by an error and none panics. A wrong password is not detected: bad padding is returned as plaintext.", "quantifier": "every block, password, random source, plaintext, cipher name", "why_tests_cant": "tests decrypt sample keys; the refusal of all other blocks, and the round trip for all data lengths, modes and passwords, are statements over unbounded inputs", "anchors": ["pkcs1/pkcs1.go EncryptPEMBlock, DecryptPEMBlock", "pkcs1/cipher_setting.go cipher settings", "pkcs1/cipher_cbc.go, cipher_cfb.go, cipher_ctr.go, cipher_ofb.go Encrypt, Decrypt"]}
{"id": "C138", "title": "PKCS #5 v1 and PKCS #12 encrypted private keys", "statement": "For each of the 14 PBES1 schemes: key and IV are those of PBKDF1 or the PKCS #12 derivation for every password, salt and count from 1 on; EncryptPKCS8PrivateKey writes exactly the EncryptedPrivateKeyInfo with the scheme's identifier, the random salt, 2048 rounds and the CBC or RC4 body, and fails only on a dry random source or a password without BMPString form; DecryptPKCS8PrivateKey returns a result exactly for such files (with any bytes behind the known fields) and errors otherwise, never panicking; encryption followed by decryption is the identity for every salt size; BMPString passwords are injective and decode back. Not met: wrong passwords are not detected, counts of zero and below count as one, a changed key size is not recorded, the RC2 schemes of PKCS #5 use 20-byte salts, passwords that are not UTF-8 collide.", "quantifier": "every scheme, password, salt, count, random source, plaintext and input file", "why_tests_cant": "tests open a few sample files and make one round trip; which byte strings are accepted and what they decrypt to is a statement about all inputs", "anchors": ["pkcs/pbes1/cipher_blockcbc.go", "pkcs/pbes1/cipher_rc4.go", "pkcs/pbes1/cipher_derived_key.go", "pkcs/pbes1/cipher_setting.go", "pkcs8/pbes1/pkcs8.go EncryptPKCS8PrivateKey, DecryptPKCS8PrivateKey, DecryptPEMBlock", "tool/bmp_string BmpString, BmpStringZeroTerminated, DecodeBMPString"]}
{"id": "C139", "title": "PBES2 private keys: exact files, round trip, and what a decryption means", "statement": "pkcs8/pbes2.EncryptPKCS8PrivateKey with any of the 88 named ciphers and any PBKDF2, SM-PBKDF2 or scrypt options writes exactly the EncryptedPrivateKeyInfo of RFC 8018 whose body is the encryption of the data under the key derived from password and salt, or reports an error (unknown hash, too little randomness, missing options); DecryptPKCS8PrivateKey and pkcs8.DecryptPEMBlock give the data back for the same password. Whatever the input, a successful decryption means that the input is such a file, names a registered cipher, and the result is the plaintext of its body (for GCM and CCM: the body is exactly the sealing of the result). PBES1 and PBES2 ciphers never end in the other scheme.", "quantifier": "all ciphers of the package, all options, passwords, salts, IVs, data (below 2^24 bytes for GCM/CCM) and all byte strings as input to decryption", "why_tests_cant": "Tests encrypt and decrypt short samples with the same code; they cannot cover all ciphers times all options, arbitrary hostile files, or what the parser accepts.", "anchors": ["pkcs8/pbes2/pkcs8.go:EncryptPKCS8PrivateKey", "pkcs8/pbes2/pkcs8.go:DecryptPKCS8PrivateKey", "pkcs8/pbes2/kdf_pbkdf2.go", "pkcs8/pbes2/kdf_smpbkdf2.go", "pkcs8/pbes2/kdf_scrypt.go", "pkcs/pbes2/cipher_setting.go", "pkcs/pbes2/cipher.go:GetCipher", "pkcs8/pkcs8.go:EncryptPEMBlock", "pkcs8/pkcs8.go:DecryptPEMBlock"]}
{"id": "C140", "title": "ZUC-128, ZUC-256 and 128-EEA3 produce the standard key stream", "statement": "For every key and iv the stream ciphers of gm/zuc XOR the data with the key words the ZUC-128 / ZUC-256 standard defines (for EEA with the standard's iv from COUNT, BEARER and DIRECTION, for every bit length), decryption restores the data, and the incremental object gives the same bytes however the message is cut.", "quantifier": "all keys, ivs, mac sizes, counts, bearers, directions, message lengths in bytes and bits, and histories of calls", "why_tests_cant": "test vectors fix one key, iv and length; cuts of a message into calls and bit lengths are unbounded", "anchors": ["gm/zuc/zuc.go: NewZucState, GenerateKeyword, GenerateKeystream, Encrypt", "gm/zuc/zuc256.go: NewZuc256StateWithMacbits", "gm/zuc/cipher.go: NewCipher, New256Cipher, NewEEACipher", "gm/zuc/eea.go: EeaEncrypt, SetEeaKey, NewZucEncrypt, Zuc.Write, Zuc.Sum"]}
{"id": "C141", "title": "ZucMac and EiaGenerateMac compute 128-EIA3", "statement": "For every key, iv and message of any number of bits, however it is cut into Write calls and a last Sum, the tag is the 128-EIA3 tag of the message bits; Reset starts a new MAC and Sum can be repeated.", "quantifier": "all keys, ivs, messages of any bit length, cuts into writes", "why_tests_cant": "the repository's own EIA test loop runs zero times; cuts and bit lengths are unbounded", "anchors": ["gm/zuc/zuc_mac.go: NewZucMac, Write, Sum, Reset", "gm/zuc/eea.go: SetEiaIV, EiaGenerateMac"]}
{"id": "C142", "title": "Zuc256Mac computes the ZUC-256 MAC", "statement": "For every key, iv, tag size and message of any number of bits, however it is cut into Write calls and a last Sum, the tag is the ZUC-256 MAC of the message bits; Reset starts a new MAC and Sum can be repeated.", "quantifier": "all keys, ivs, values of macbits, messages of any bit length, cuts into writes", "why_tests_cant": "cuts and bit lengths are unbounded", "anchors": ["gm/zuc/zuc256_mac.go: NewZuc256Mac, Write, Sum, Reset"]}
{"id": "C143", "title": "An XMSS key never uses a one-time index twice and refuses when spent", "statement": "Each Sign on an XMSS, XMSS-MT or SM3-XMSS private key uses the next index, stores the index after it in the key before returning, changes nothing else of the key, and once all 2^h indices are used every further Sign returns an error.", "quantifier": "all 80 parameter sets, all hash functions, all seeds, all histories of Sign calls and messages", "why_tests_cant": "A key has up to 2^60 indices and the property is about every history of calls; tests sign once or twice and never reach the end of a key.", "anchors": ["pubkey/xmss/xmss.go: PrivateKey.Sign", "pubkey/xmss/xmss/xmss.go: Sign", "pubkey/xmss/xmssmt/xmssmt.go: Sign", "pubkey/xmss/params.go: NewParams"]}
{"id": "C144", "title": "XMSS Verify accepts what Sign produced", "statement": "For every parameter set of the packages xmss, xmssmt and sm3xmss, Verify under the generated public key accepts every signature Sign returns on any message at any point of the key's life, the signature ends with the message, and ExportPublicKey gives back the public key from the private key at any time.", "quantifier": "all parameter sets, all hash functions with the stated digest length, all seeds, all histories of messages", "why_tests_cant": "Needs the Merkle tree and one-time chains to agree between signer and verifier at every index, layer and message; tests try one index.", "anchors": ["pubkey/xmss/xmss.go: Sign, GenerateKey, Verify", "pubkey/xmss/tree.go: treehash, computeRoot, lTree", "pubkey/xmss/wots.go", "pubkey/xmss/hash_address.go"]}
{"id": "C145", "title": "XMSS Verify judges the message it is given", "statement": "Verify(pub, m, signature) answers whether the signature is one on the message m, for any m.", "quantifier": "all messages, signatures, public keys and parameter sets", "why_tests_cant": "The defect is that the argument is not read at all; a test that passes the right message cannot tell.", "anchors": ["pubkey/xmss/xmss.go: Verify", "pubkey/xmss/xmss/xmss.go: Verify"]}
{"id": "C146", "title": "XMSS parameter sets fill their n bytes with hash output", "statement": "The hash of each XMSS parameter set produces at least the n bytes that the set's nodes, keys and roots hold.", "quantifier": "all parameter sets of the three packages, all hash functions with the stated digest length, all seeds", "why_tests_cant": "Sign and Verify agree on the short digests, so round trip tests pass; only a statement about all generated roots shows it.", "anchors": ["pubkey/xmss/xmss/params.go: NewParamsWithOid", "pubkey/xmss/xmssmt/params.go: NewParamsWithOid", "pubkey/xmss/hash.go: coreHash"]}
{"id": "C147", "title": "XMSS one-time signatures on different digests are incomparable", "statement": "For every XMSS, XMSS-MT and SM3-XMSS parameter set, of the hash chains of the one-time signatures on two different digests at least one is shorter for the second: a signature cannot be extended to another digest by hashing forward only.", "quantifier": "all 80 parameter sets and all pairs of different n-byte digests", "why_tests_cant": "It is a claim about every pair of 192- to 512-bit digests; a wrong shift of the checksum would still sign and verify.", "anchors": ["pubkey/xmss/wots.go: basew", "pubkey/xmss/wots.go: wotsChecksum", "pubkey/xmss/params.go: NewParams"]}
{"id": "C148", "title": "Ascon-128 and Ascon-128a seal and open as published", "statement": "For every 16-byte key, Seal of Ascon-128 and Ascon-128a appends to dst exactly the ciphertext and tag of the published algorithm; Open accepts exactly those strings and returns the plaintext, refuses every other string and leaves zeros in its place; what is sealed opens again, also in place; Seal panics exactly on a wrong nonce length or a partial overlap. The permutation under it is injective.", "quantifier": "both variants, all keys, nonces, associated data and plaintexts of every length, all destination slices apart from or exactly over the input", "why_tests_cant": "The known-answer files reach 32 bytes of text and data; padding of the last partial word, the split into 8- and 16-byte blocks and the masking on decryption must be right at every length, and in every overlap.", "anchors": ["cipher/ascon/ascon.go: NewCipher", "cipher/ascon/ascon.go: NewCiphera", "cipher/ascon/ascon.go: Seal", "cipher/ascon/ascon.go: Open", "cipher/ascon/state.go: encrypt128a", "cipher/ascon/state.go: decrypt128a", "cipher/ascon/utils.go: roundGeneric"]}
{"id": "C149", "title": "Xoodyak AEAD seals and opens as published", "statement": "For every 16-byte key and nonce, CryptoEncryptAEAD gives exactly the ciphertext and tag of the published Xoodyak mode; CryptoDecryptAEAD returns a plaintext exactly when its encryption is the given ciphertext and tag. Seal appends that string to dst, Open of it gives the plaintext back and refuses every other string; keys of another length are refused and a nonce of another length is a panic in Seal.", "quantifier": "all keys, nonces, associated data and plaintexts of every length; all heaps and slices for Seal and Open", "why_tests_cant": "Test vectors have fixed lengths; the block splitting, the empty-message turn and the aliasing of append must be right for every length and every capacity.", "anchors": ["cipher/xoodoo/xoodyak/aead.go: CryptoEncryptAEAD", "cipher/xoodoo/xoodyak/aead.go: CryptoDecryptAEAD", "cipher/xoodoo/xoodyak/aead.go: Seal", "cipher/xoodoo/xoodyak/aead.go: Open", "cipher/xoodoo/xoodyak/xoodyak.go: AbsorbKey", "cipher/xoodoo/xoodoo/xoodoo.go: Permutation"]}
{"id": "C150", "title": "Xoodyak streams carry the same ciphertext however they are cut", "statement": "Whatever the sizes of the Writes, after Close the underlying writer has been given the published ciphertext and tag of the concatenation, and a second Close fails. A DecryptStream over a ciphertext and tag returns the plaintext in order for every sequence of buffer sizes, the last part with no error exactly if the tag is right and the authentication error if not, and end of file afterwards; an empty buffer first only authenticates; every Read ends; a stream without a full tag is refused.", "quantifier": "all keys, nonces, associated data, messages, all cuts into Writes and Reads, all underlying readers that give pieces of any sizes and announce the end early or late", "why_tests_cant": "The carried-over buffer and the 16 bytes held back as possible tag interact with every way of cutting the input; termination is a statement about every schedule.", "anchors": ["cipher/xoodoo/xoodyak/aead.go: EncryptStream.Write", "cipher/xoodoo/xoodyak/aead.go: EncryptStream.Close", "cipher/xoodoo/xoodyak/aead.go: DecryptStream.Read"]}
{"id": "C151", "title": "Xoodyak hash and MAC, one-shot and as objects", "statement": "HashXoodyakLen and MACXoodyak are the published hash and MAC for every message and length. The hash.Hash objects give the same 32 bytes for every way of cutting the message into Writes, Sum does not change the object, and Reset brings back the state of the constructor.", "quantifier": "all messages, output lengths, keys of 1 to 43 bytes, and all sequences of Writes", "why_tests_cant": "The result must not depend on how the message is cut, for every cut of every message.", "anchors": ["cipher/xoodoo/xoodyak/hash.go: digest.Write", "cipher/xoodoo/xoodyak/hash.go: digest.Sum", "cipher/xoodoo/xoodyak/hash.go: digest.Reset", "cipher/xoodoo/xoodyak/mac.go: NewXoodyakMac", "cipher/xoodoo/xoodyak/mac.go: MACXoodyak"]}
{"id": "C152", "title": "The Cyclist operations follow the published mode", "statement": "Any sequence of Absorb, Encrypt, Decrypt, Squeeze, SqueezeKey and Ratchet on an instance gives the outputs of the published Cyclist mode; the keyed operations on an unkeyed instance panic, and so does a key with nonce of 44 bytes or more.", "quantifier": "all sequences of operations of every length, with all inputs", "why_tests_cant": "The phase and the domain bytes must be right after every history of operations.", "anchors": ["cipher/xoodoo/xoodyak/xoodyak.go: Instantiate", "cipher/xoodoo/xoodyak/xoodyak.go: Absorb", "cipher/xoodoo/xoodyak/xoodyak.go: Encrypt", "cipher/xoodoo/xoodyak/xoodyak.go: Squeeze", "cipher/xoodoo/xoodyak/xoodyak.go: Ratchet", "cipher/xoodoo/xoodyak/xoodyak.go: Up"]}
{"id": "C153", "title": "SKIPJACK is a block cipher", "statement": "NewCipher of cipher/skipjack accepts exactly the documented keys; for every such key Decrypt(Encrypt(b)) = b and Encrypt(Decrypt(b)) = b for every block, Encrypt and Decrypt change only the block at dst, and panic exactly on short slices and partial overlap. The table is a permutation of the bytes.", "quantifier": "all keys, all blocks, all memories and slices", "why_tests_cant": "Inverse rounds and aliasing must be right for every key and every block; test vectors fix a few.", "anchors": ["cipher/skipjack/skipjack.go: NewCipher", "cipher/skipjack/skipjack.go: Encrypt", "cipher/skipjack/skipjack.go: Decrypt"]}
{"id": "C154", "title": "GOST 28147-89 is a block cipher", "statement": "NewCipher of cipher/gost accepts exactly the documented keys; for every such key Decrypt(Encrypt(b)) = b and Encrypt(Decrypt(b)) = b for every block, Encrypt and Decrypt change only the block at dst, and panic exactly on short slices and partial overlap. The S-box tables of the package consist of permutations.", "quantifier": "all keys, all blocks, all memories and slices", "why_tests_cant": "Inverse rounds and aliasing must be right for every key and every block; test vectors fix a few.", "anchors": ["cipher/gost/gost.go: NewCipher", "cipher/gost/gost.go: Encrypt", "cipher/gost/gost.go: Decrypt"]}
{"id": "C155", "title": "Magma is a block cipher", "statement": "NewCipher of cipher/magma accepts exactly the documented keys; for every such key Decrypt(Encrypt(b)) = b and Encrypt(Decrypt(b)) = b for every block, Encrypt and Decrypt change only the block at dst, and panic exactly on short slices and partial overlap. One cipher may be used by several goroutines.", "quantifier": "all keys, all blocks, all memories and slices", "why_tests_cant": "Inverse rounds and aliasing must be right for every key and every block; test vectors fix a few.", "anchors": ["cipher/magma/magma.go: NewCipher", "cipher/magma/magma.go: Encrypt", "cipher/magma/magma.go: Decrypt"]}
{"id": "C156", "title": "SHACAL-2 is a block cipher", "statement": "NewCipher of cipher/shacal2 accepts exactly the documented keys; for every such key Decrypt(Encrypt(b)) = b and Encrypt(Decrypt(b)) = b for every block, Encrypt and Decrypt change only the block at dst, and panic exactly on short slices and partial overlap. Different keys of accepted lengths give different ciphers.", "quantifier": "all keys, all blocks, all memories and slices", "why_tests_cant": "Inverse rounds and aliasing must be right for every key and every block; test vectors fix a few.", "anchors": ["cipher/shacal2/shacal2.go: NewCipher", "cipher/shacal2/shacal2.go: Encrypt", "cipher/shacal2/shacal2.go: Decrypt"]}
{"id": "C157", "title": "WhirlX is a block cipher", "statement": "NewCipher of cipher/whirlx accepts exactly the documented keys; for every such key Decrypt(Encrypt(b)) = b and Encrypt(Decrypt(b)) = b for every block, Encrypt and Decrypt change only the block at dst, and panic exactly on short slices and partial overlap. ", "quantifier": "all keys, all blocks, all memories and slices", "why_tests_cant": "Inverse rounds and aliasing must be right for every key and every block; test vectors fix a few.", "anchors": ["cipher/whirlx/whirlx.go: NewCipher", "cipher/whirlx/whirlx.go: Encrypt", "cipher/whirlx/whirlx.go: Decrypt"]}
{"id": "C158", "title": "TWINE is a block cipher", "statement": "NewCipher of cipher/twine accepts exactly the documented keys; for every such key Decrypt(Encrypt(b)) = b and Encrypt(Decrypt(b)) = b for every block, Encrypt and Decrypt change only the block at dst, and panic exactly on short slices and partial overlap. ", "quantifier": "all keys, all blocks, all memories and slices", "why_tests_cant": "Inverse rounds and aliasing must be right for every key and every block; test vectors fix a few.", "anchors": ["cipher/twine/twine.go: NewCipher", "cipher/twine/twine.go: Encrypt", "cipher/twine/twine.go: Decrypt"]}
{"id": "C159", "title": "A cascade of two block ciphers is a block cipher", "statement": "For any two block ciphers, cascade.NewCipher gives a block cipher with blocks of the least common multiple of the sizes; Encrypt applies the first cipher to all its blocks, then the second; Decrypt undoes Encrypt for every block; only the block at dst changes, also in place; short slices and partial overlap panic.", "quantifier": "all pairs of block ciphers of any block sizes, all blocks, memories and slices", "why_tests_cant": "Tests combine a few ciphers; the claim ranges over all ciphers and block sizes.", "anchors": ["cipher/cascade/cascade.go: NewCipher", "cipher/cascade/cascade.go: Encrypt", "cipher/cascade/cascade.go: Decrypt", "tool/math/lcm/lcm.go: Lcm"]}
{"id": "C160", "title": "LION over any hash and stream cipher is a block cipher", "statement": "For every hash, every stream cipher and every key, lion.NewCipher gives a block cipher of the requested size, at least twice the hash size plus one: Decrypt undoes Encrypt on every block, only the first block of dst changes, and different keys of the accepted length give different keys to the parts.", "quantifier": "all hashes, stream ciphers, block sizes, keys, blocks, memories and slices", "why_tests_cant": "The test uses one hash and one stream cipher and one length of slices.", "anchors": ["cipher/lion/lion.go: NewCipher", "cipher/lion/lion.go: Encrypt", "cipher/lion/lion.go: Decrypt", "cipher/lion/lion.go: encrypt", "cipher/lion/lion.go: decrypt"]}
{"id": "C161", "title": "The Enigma cipher is an involutive rotor machine", "statement": "Every 13-byte key with any seed gives a cipher: the key schedule always ends without a panic. XORKeyStream replaces the byte at each position by a substitution that depends only on key, seed and position, however the data is cut into calls; the substitution is its own inverse and never maps a byte to itself; a second cipher with the same key and seed undoes any history of the first.", "quantifier": "all keys, seeds, call histories, memories and slices", "why_tests_cant": "Termination of the rotor construction and the absence of a division by zero depend on a parity argument over all keys and seeds.", "anchors": ["cipher/enigma/enigma.go: NewCipherWithSeed", "cipher/enigma/enigma.go: expandKey", "cipher/enigma/enigma.go: XORKeyStream"]}
{"id": "C162", "title": "Two-key triple DES does not touch its arguments", "statement": "NewTwoDESCipher accepts exactly keys of 16 bytes; the cipher is triple DES with keys K1, K2, K1, a block cipher; the memory of the caller is not changed by the constructor.", "quantifier": "all keys, heaps, key slices of any capacity, runtimes' growth policies, blocks", "why_tests_cant": "Tests use a key slice without spare capacity.", "anchors": ["cipher/des/des.go: NewTwoDESCipher", "cipher/des/des.go: Encrypt", "cipher/des/des.go: Decrypt"]}
{"id": "C163", "title": "The Rabin fingerprint is the message modulo the polynomial", "statement": "For every polynomial of degree 8 to 63, rabin.NewTable builds tables such that Sum64 after any sequence of Write and Reset calls is the remainder of the bytes written since the last Reset, as a polynomial over GF(2), modulo the polynomial: of all of them, or with a rolling window of the last window bytes (preceded by zeros). How the bytes are divided into Write calls does not matter; Sum gives the bytes of the same number. Two messages collide exactly when the polynomial divides their difference.", "quantifier": "all polynomials of degree 8 to 63, all window sizes, all sequences of Write and Reset of any lengths", "why_tests_cant": "The tables have to be right for every byte value and the rolling state for every history and every division into writes.", "anchors": ["hash/rabin/poly.go", "hash/rabin/rabin.go: NewTable", "hash/rabin/rabin.go: Write", "hash/rabin/rabin.go: Sum64"]}
{"id": "C164", "title": "Content-defined chunking depends on the content only", "statement": "For every content and all accepted parameters, Chunker.Next gives chunk after chunk: each ends at the first position, at least the minimum from its beginning, where the Rabin fingerprint of the last window bytes is avg-1 modulo avg, or after the maximum, or at the end. The chunks cover the content, then Next returns io.EOF for ever. Neither the sizes of the reads nor a Discard method change the result, and streams that agree after a boundary are cut alike from there. Reset starts over.", "quantifier": "all polynomials, windows, minima, averages, maxima, contents, read sizes at every call, numbers of calls", "why_tests_cant": "The buffer wraps and refills at positions that depend on how the reader delivers; only an invariant covers every delivery.", "anchors": ["hash/rabin/chunker.go: NewChunker", "hash/rabin/chunker.go: Next", "hash/rabin/chunker.go: Reset", "hash/rabin/chunker.go: discard", "hash/rabin/chunker.go: more"]}
{"id": "C165", "title": "What an RSA private key encrypts its public key decrypts", "statement": "For every valid RSA key (any number of primes, with or without precomputed values) and every message, PublicKeyBytes(pub, PrivateKeyBytes(priv, m, true), false) gives m; the private operation is c^D mod N whatever blinding factors are drawn; PublicKeyBytes never panics and accepts only what the private key has made.", "quantifier": "all valid keys, all messages, all random numbers", "why_tests_cant": "Tests use a few keys and short messages; blinding, CRT with many primes and the buffers of long messages need a proof for every key and every length.", "anchors": ["pubkey/rsa/encryption.go: PublicKeyBytes", "pubkey/rsa/encryption.go: PrivateKeyBytes", "pubkey/rsa/encryption.go: decrypt", "pubkey/rsa/encryption.go: pubKeyDecrypt", "pubkey/rsa/encryption.go: priKeyEncrypt"]}
{"id": "C166", "title": "RSA without padding round-trips", "statement": "For every valid key LowerSafeDecrypt(LowerSafeEncrypt(m)) = m.", "quantifier": "all valid keys, all messages", "why_tests_cant": "A test message has no leading zero and is short.", "anchors": ["pubkey/rsa/lower_safe.go: LowerSafeEncrypt", "pubkey/rsa/lower_safe.go: LowerSafeDecrypt"]}
{"id": "C167", "title": "bign signatures: what is signed verifies, and only valid signatures are accepted", "statement": "For bign (STB 34.101.45) keys: VerifyBytes accepts exactly the octet strings S0||S1 that are valid signatures of the message under the public key and the OID in the additional data, and gives a verdict on every string; a signature returned by SignBytes or SignToRS, with a random or the deterministic nonce, has the standard's length and is accepted by verification; nonces are in [1, q-1]; GetOidFromAdata and GetTFromAdata return what MakeAdata put in and never fail on a slice.", "quantifier": "every curve group of prime order, every key pair, hash function, message, additional data, random reader and candidate signature", "why_tests_cant": "Tests sign with a handful of nonces on the named curves; signatures with S1 = 0, nonce 0, negative or overlong r, short hash functions and 64 KiB additional data never occur in them.", "anchors": ["pubkey/bign/bign.go: SignToRS, VerifyWithRS, SignBytes, VerifyBytes", "pubkey/bign/utils.go: GetOidFromAdata, GetTFromAdata, MakeAdata, determiniticNonce"]}
{"id": "C168", "title": "Rational and integer helpers compute what their names say", "statement": "Ceil and Floor of a rational are its ceiling and floor; Round is a nearest integer; Odd returns the least odd number not below its argument and leaves the argument alone; RotateLeft and RotateRight with Mask(s) rotate s-bit words; E(n) is the n-term partial sum of the series for Euler's number, Sqrt and Phi approach the square root and the golden ratio to the precision asked for.", "quantifier": "every rational and integer, every word size and rotation, every number of rounds and every precision", "why_tests_cant": "The tests compare a few values; rounding of non-negative numbers, rotations beyond the word size and the convergence of the Newton iteration are statements about all arguments.", "anchors": ["tool/math/math.go: Ceil, Floor, Round, Odd, Mask, RotateLeft, RotateRight, E, Sqrt, Phi"]}
{"id": "C169", "title": "Random art is the framed walk of the fingerprint", "statement": "Randomart returns, for every string, the picture of the walk its bits describe on a board of 17 by 9 squares: walls stop the walk, each square shows the number of visits (capped), S and E mark start and end. It never leaves the board, never overruns its output buffer, and every picture has the same size.", "quantifier": "every byte string of every length", "why_tests_cant": "A test draws one fingerprint; staying on the board and in the buffer must hold for every walk of every length.", "anchors": ["rand/randomart/randomart.go: Randomart"]}
{"id": "C170", "title": "Keys from the seeded reader", "statement": "A key generated with keygen from a seeded prng reader has length/8 bytes and depends on the seed only; successive reads of the reader give fresh bytes; a reader that delivers fewer bytes than asked for does not lead to a key with predictable bytes; the zero reader gives zeros.", "quantifier": "every hash function, seed, key length, buffer length and reader", "why_tests_cant": "A test fixes one seed and one length; the statement is about all of them and about readers that deliver short counts.", "anchors": ["rand/prng/prng.go: Prng.Read", "rand/keygen/keygen.go: GenerateKey", "rand/zero/zero.go: Read"]}
{"id": "C171", "title": "Threefish-256, -512 and -1024 encrypt as the Skein paper says and decryption inverts", "statement": "threefish.NewCipher(key, tweak) accepts exactly keys of 32, 64 or 128 bytes with a tweak of 16 bytes. For every such key and tweak and every block of the key's length, Encrypt computes the Threefish block function of the Skein paper (subkey injection every four rounds, MIX, word permutation), Decrypt returns the block, and encrypting a decrypted block gives it back; bytes of dst beyond the block stay. Encrypt should also refuse a destination shorter than a block and not touch bytes outside one block; it does neither: a short destination is filled as far as it goes, and a source longer than a block has its tail copied in the clear.", "quantifier": "all keys of the three sizes, all tweaks, all blocks, all destinations", "why_tests_cant": "The eight rounds are unrolled by hand for each size with different permutations and rotation constants; a test of some vectors does not show that encryption and decryption are inverse on every block, key and tweak.", "anchors": ["cipher/threefish/threefish.go: NewCipher", "cipher/threefish/threefish256.go: Encrypt, Decrypt", "cipher/threefish/threefish512.go: Encrypt, Decrypt", "cipher/threefish/threefish1024.go: Encrypt, Decrypt"]}
{"id": "C172", "title": "belt encrypts blocks as STB 34.101.31 says, and decryption inverts", "statement": "belt.NewCipher accepts exactly keys of 16, 24 and 32 bytes and gives a block cipher with 16-byte blocks whose Decrypt inverts Encrypt. For every key and block Encrypt should compute the belt block cipher of STB 34.101.31. It does not: the function G rotates to the right where the standard rotates to the left, so the standard's own vector comes out differently and cipher/belt disagrees with hash/belt of the same repository; and the eighth word of an expanded 192-bit key is t2^t3^t4 where the standard has t4^t5^t6.", "quantifier": "all keys of the three sizes, all blocks", "why_tests_cant": "The tests were generated with the same code, so they pass; only a comparison with the standard's description for all keys and blocks shows what the function computes, and inversion must hold for every block.", "anchors": ["cipher/belt/belt.go: NewCipher, Encrypt, Decrypt, expandKey", "cipher/belt/utils.go: G, ROTL_BELT", "cipher/belt/sboxs.go: S, KIdx"]}
{"id": "C173", "title": "MAGENTA: a block cipher for keys of 16, 24 and 32 bytes, computing the submission's function up to the byte order in words", "statement": "magenta.NewCipher accepts exactly keys of 16, 24 and 32 bytes. For every key and block Encrypt computes MAGENTA (f as powers of a primitive element, PE, Pi, T, S, C(3), E(3), six or eight Feistel rounds with a palindromic key order) with every group of four bytes of key, block and result reversed, and Decrypt inverts it. Encrypt and Decrypt should write one block only; when src has further whole words and dst has room the bytes after the block are overwritten with zeros.", "quantifier": "all keys of the three sizes, all blocks, all buffers and slices", "why_tests_cant": "The tests of the package are round trips on random keys and slices of exactly one block: they show neither which function is computed nor what happens to longer slices, and cannot show inversion for all keys.", "anchors": ["cipher/magenta/magenta.go: NewCipher, Encrypt, Decrypt, expandKey", "cipher/magenta/utils.go: pi, e3, r, genTab", "cipher/magenta/sbox.go: sBox"]}
{"id": "C174", "title": "SAFER ciphers invert, follow the published design, and what a bad round count does", "statement": "For every round argument, safer.NewKCipher, NewSKCipher and NewCipher accept exactly the keys of 8 and 16 bytes, and Encrypt and Decrypt are inverse on every 8-byte block. With round argument 0 (the default) or 6 to 13, Encrypt is SAFER K-64, K-128, SK-64 or SK-128 with that number of rounds. With any other round argument the constructor still reports success, and Encrypt writes the plaintext unchanged for every key and block.", "quantifier": "all keys, blocks, round arguments, memories and slices", "why_tests_cant": "The tests are round trips with valid round counts, which the identity function passes too.", "anchors": ["cipher/safer/safer.go:NewKCipher", "cipher/safer/safer.go:NewSKCipher", "cipher/safer/safer.go:encrypt", "cipher/safer/safer.go:decrypt", "cipher/safer/safer.go:setSK64Key", "cipher/safer/utils.go:Safer_Expand_Userkey"]}
{"id": "C175", "title": "LOKI97 inverts and is LOKI97", "statement": "loki97.NewCipher accepts exactly the keys of 16, 24 and 32 bytes. For each of them Encrypt and Decrypt are inverse on every 16-byte block, refuse short and partially overlapping slices, and Encrypt is the LOKI97 of the AES submission: 64-bit additions, cubes in GF(2^13) and GF(2^11) as boxes, the regular permutation, and its 48 subkeys.", "quantifier": "all keys, blocks, memories and slices", "why_tests_cant": "Two vectors for 256-bit keys do not exercise the 128 and 192 bit schedules, nor all carries of the emulated 64-bit addition and all 8192 and 2048 box entries.", "anchors": ["cipher/loki97/loki97.go:NewCipher", "cipher/loki97/block.go:blockEncrypt", "cipher/loki97/keygeneration.go:makeKey", "cipher/loki97/keygeneration.go:compute", "cipher/loki97/sboxes.go:exp3", "cipher/loki97/permutation.go:permutationGeneration", "cipher/loki97/ulong64.go:add64"]}
{"id": "C176", "title": "E2 decrypts what it encrypts", "statement": "For every key of 16, 24 or 32 bytes and no others cipher/e2 NewCipher gives a block cipher: Encrypt and Decrypt are inverse functions on 16-byte blocks, panic on short or partially overlapping slices and change nothing but the block. The multiplicative inverses of the key schedule are inverses modulo 2^32, and the substitution table is the published function 97 x^127 + 225.", "quantifier": "all keys of all lengths, all blocks, all memories and slices", "why_tests_cant": "The keys on which NewCipher fails are about one in 2^28: no test with random keys meets one.", "anchors": ["cipher/e2/e2.go:NewCipher", "cipher/e2/e2.go:expandKey", "cipher/e2/e2.go:encrypt", "cipher/e2/e2.go:decrypt", "cipher/e2/utils.go:mod_inv", "cipher/e2/sbox.go:s_box"]}
{"id": "C177", "title": "SAFER+ is a block cipher", "statement": "For every key of 8 or 16 bytes and no others cipher/saferplus NewCipher gives a block cipher: Encrypt and Decrypt are inverse functions of the first 8 bytes of src, for slices of any length, and panic only on short or partially overlapping slices.", "quantifier": "all keys of all lengths, all blocks, all memories and slices", "why_tests_cant": "The tests use slices of exactly one block and a few keys.", "anchors": ["cipher/saferplus/saferplus.go:NewCipher", "cipher/saferplus/saferplus.go:Encrypt", "cipher/saferplus/saferplus.go:Decrypt", "cipher/saferplus/saferplus.go:expandKey", "cipher/saferplus/utils.go:pht"]}
{"id": "C178", "title": "SQUARE is the published cipher", "statement": "For every key of 16 bytes and no others cipher/square NewCipher gives a block cipher: Encrypt is SQUARE as published (θ, γ, π and key addition on matrices of bytes, key evolution ψ), Decrypt is its inverse, and both panic on short or partially overlapping slices.", "quantifier": "all keys of all lengths, all blocks, all memories and slices", "why_tests_cant": "The code works with eight tables of words and transformed round keys; a test vector checks one key and block.", "anchors": ["cipher/square/square.go:NewCipher", "cipher/square/utils.go:squareGenerateRoundKeys", "cipher/square/utils.go:squareRound", "cipher/square/utils.go:squareFinal", "cipher/square/utils.go:squareEncrypt", "cipher/square/utils.go:squareDecrypt", "cipher/square/tabs.go:Te0"]}
{"id": "C179", "title": "MARS is the published cipher", "statement": "For every key of 16, 20, … or 56 bytes and no others cipher/mars NewCipher gives a block cipher: Encrypt is MARS as published (forward mixing, core, backwards mixing on a rotating array of words; key words from fifteen-word turns, multiplication words corrected by the mask of runs of ten equal bits), Decrypt is its inverse, both panic on short or partially overlapping slices, and every multiplication word ends in two 1 bits.", "quantifier": "all keys of all lengths, all blocks, all memories and slices, all words the mask is made of", "why_tests_cant": "The code unrolls the rounds with permuted arguments, carries neighbours in scalars and makes the mask with shifts; test vectors have three keys of one size, and the correction of a key word happens for few keys.", "anchors": ["cipher/mars/mars.go:NewCipher", "cipher/mars/mars.go:expandKey", "cipher/mars/mars.go:encryptBlock", "cipher/mars/mars.go:decryptBlock", "cipher/mars/utils.go:F_MIX", "cipher/mars/utils.go:B_MIX", "cipher/mars/utils.go:CORE", "cipher/mars/utils.go:CORE_INV", "cipher/mars/utils.go:MASK_GEN"]}
