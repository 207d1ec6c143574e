# Formal model of go-cryptobin in Lean 4 — design

## Layout

* `lean/Verif/Go/*`      – the small amount of Go semantics the models share: bytes, words, slices,
  `copy`, `append`, `subtle.XORBytes`, flat memory, result type (value / error / panic).
* `lean/Verif/<Area>/Model*.lean`  – one Lean function per Go function, each with a comment citing file and lines.
* `lean/Verif/<Area>/Spec*.lean`   – small independent specification the properties are stated against.
* `lean/Verif/<Area>/Lemmas*.lean` – helper lemmas.
* `lean/Verif/<Area>/Props*.lean`  – the property theorems only, each followed by an `example` that shows a
  concrete non-trivial case meets its hypotheses. Theorem names start with the property id (`C01_…`).
  `_partial` marks a theorem that proves only part of a property; `_violated` marks a proved
  counterexample (the code as written does not satisfy the property at that point).

## Conventions

* `Byte = BitVec 8`, words are `BitVec n`, so Go's wrap-around arithmetic is exact. Go `int` lengths are `Nat`/`Int`
  (no 63-bit overflow of lengths is modelled unless stated).
* A Go function that can return an error or panic returns `Res α` (`ok`, `err`, `panic`). Error messages are kept
  only where a property talks about them.
* Where aliasing matters (modes, AEADs, padding via `append`) the model uses a flat memory `Nat → Byte` and slices as
  (pointer, length, capacity), so "dst and src may be the same buffer" is part of the statement.
* A block cipher is a structure `(bs, E, D)`; modes are verified for *every* block cipher. The repository's own
  ciphers are modelled separately and proved to be such block ciphers.
* A block cipher's `Encrypt(dst, src)` is modelled as reading all of src before writing dst.

## Trusted base

* Lean 4.33.0 kernel. Axioms: at most `propext`, `Classical.choice`, `Quot.sound` (checked with `#print axioms`).
* The reading of the Go code into the model (nothing is run; each definition cites its source).
* Go standard library parts used by the code (`crypto/subtle`, `bytes`, `encoding/binary`, `math/big`,
  `crypto/cipher` CTR/CBC) are modelled from their documented behaviour.
* Not modelled: assembly variants (`*_amd64.s`, `*_arm64.s`), timing/constant-time behaviour, memory safety of
  `unsafe` code, randomness quality, the Go scheduler.

## Per-property plan
* **C01** PKCS#7/PKCS#5 padding round-trips — `padding` model over lists; closed form of `Padding`, then case analysis of `UnPadding`; block size 256 counterexample by evaluation.
* **C02** PKCS#7/PKCS#5 UnPadding accepts only well-formed padding — `UnPadding` as loop over indices; iff-characterisation; acceptance of k=0 proved as a violation.
* **C03** ANSI X9.23 padding round-trips and is checked — as C01/C02.
* **C04** ISO 10126 padding round-trips whatever the random filler — random filler is a universally quantified list of the right length.
* **C05** ISO 7816-4 / ISO 9797-1 M2 / PBOC2 padding is a bijection onto its image — LastIndexByte model; iff-characterisation.
* **C06** Zero padding round-trips exactly on texts that do not end in 0x00 — TrimRight model; iff.
* **C07** Trailing-bit-complement padding round-trips and is checked — backward scan model; iff.
* **C08** PKCS#1-style padding is reversible — exact length is blockSize+1 (violation) ; round-trip for texts < 256 bytes.
* **C09** Padding keeps the text and aligns to the block size — corollary of closed forms.
* **C10** Padding does not write to memory the caller did not hand over — memory-level model of `append`; counterexample when cap > len, frame theorem when cap = len.
* **C11** ECB computes the ECB mode and decryption inverts encryption — memory-level model of CryptBlocks refined to a per-block state machine; round-trip by simulation; in-place case included.
* **C12** PCBC computes the PCBC mode and decryption inverts encryption — memory-level model of CryptBlocks refined to a per-block state machine; round-trip by simulation; in-place case included.
* **C13** BC computes the BC mode and decryption inverts encryption — memory-level model of CryptBlocks refined to a per-block state machine; round-trip by simulation; in-place case included.
* **C14** IGE computes the IGE mode and decryption inverts encryption — memory-level model of CryptBlocks refined to a per-block state machine; round-trip by simulation; in-place case included.
* **C15** GOST R 34.13-2015 CBC computes the GOST R 34.13-2015 CBC mode and decryption inverts encryption — memory-level model of CryptBlocks refined to a per-block state machine; round-trip by simulation; in-place case included.
* **C16** OFBNLF computes the OFBNLF mode and decryption inverts encryption — memory-level model of CryptBlocks refined to a per-block state machine; round-trip by simulation; in-place case included.
* **C17** Block modes can be fed in pieces — memory-level model of CryptBlocks refined to a per-block state machine; round-trip by simulation; in-place case included.
* **C18** CFB stream: correct keystream, decryption inverts encryption — memory-level model of XORKeyStream refined to a per-byte state machine, hence piecewise feeding; round-trip by simulation.
* **C19** CFB1 stream: correct keystream, decryption inverts encryption — memory-level model of XORKeyStream refined to a per-byte state machine, hence piecewise feeding; round-trip by simulation.
* **C20** CFB8 stream: correct keystream, decryption inverts encryption — memory-level model of XORKeyStream refined to a per-byte state machine, hence piecewise feeding; round-trip by simulation.
* **C21** CFB16/CFB32/CFB64 stream: correct keystream, decryption inverts encryption — memory-level model of XORKeyStream refined to a per-byte state machine, hence piecewise feeding; round-trip by simulation.
* **C22** OFB stream: correct keystream, decryption inverts encryption — memory-level model of XORKeyStream refined to a per-byte state machine, hence piecewise feeding; round-trip by simulation.
* **C23** OFB8 stream: correct keystream, decryption inverts encryption — memory-level model of XORKeyStream refined to a per-byte state machine, hence piecewise feeding; round-trip by simulation.
* **C24** NOFB/NCFB stream: correct keystream, decryption inverts encryption — memory-level model of XORKeyStream refined to a per-byte state machine, hence piecewise feeding; round-trip by simulation.
* **C25** OpenPGP CFB (OCFB) stream: correct keystream, decryption inverts encryption — memory-level model of XORKeyStream refined to a per-byte state machine, hence piecewise feeding; round-trip by simulation.
* **C26** GOST CFB with key meshing (GCFB) stream: correct keystream, decryption inverts encryption — memory-level model of XORKeyStream refined to a per-byte state machine, hence piecewise feeding; round-trip by simulation.
* **C27** GOST 28147 counter mode (GOFB) stream: correct keystream, decryption inverts encryption — memory-level model of XORKeyStream refined to a per-byte state machine, hence piecewise feeding; round-trip by simulation.
* **C28** GOST R 34.13 CFB/CTR/OFB stream: correct keystream, decryption inverts encryption — memory-level model of XORKeyStream refined to a per-byte state machine, hence piecewise feeding; round-trip by simulation.
* **C29** Stream modes can be fed in pieces — memory-level model of XORKeyStream refined to a per-byte state machine, hence piecewise feeding; round-trip by simulation.
* **C30** AES key wrap (RFC 3394) unwraps what it wrapped and detects corruption — list-level model of the 6·n step loop, inverse by induction over steps; spec = RFC recursion with 64-bit t.
* **C31** AES key wrap with padding (RFC 5649) round-trips — list-level model of the 6·n step loop, inverse by induction over steps; spec = RFC recursion with 64-bit t.
* **C32** CCM: Open inverts Seal and rejects any other tag — model of Seal/Open over an abstract block cipher plus dst slice; round-trip, tag check, dst-prefix and aliasing behaviour.
* **C33** EAX: Open inverts Seal and rejects any other tag — model of Seal/Open over an abstract block cipher plus dst slice; round-trip, tag check, dst-prefix and aliasing behaviour.
* **C34** MGM: Open inverts Seal and rejects any other tag — model of Seal/Open over an abstract block cipher plus dst slice; round-trip, tag check, dst-prefix and aliasing behaviour.
* **C35** OCB: Open inverts Seal and rejects any other tag — model of Seal/Open over an abstract block cipher plus dst slice; round-trip, tag check, dst-prefix and aliasing behaviour.
* **C36** OCB3: Open inverts Seal and rejects any other tag — model of Seal/Open over an abstract block cipher plus dst slice; round-trip, tag check, dst-prefix and aliasing behaviour.
* **C37** SIV: Open inverts Seal and rejects any other tag — model of Seal/Open over an abstract block cipher plus dst slice; round-trip, tag check, dst-prefix and aliasing behaviour.
* **C38** HCTR is a length-preserving permutation — model of Seal/Open over an abstract block cipher plus dst slice; round-trip, tag check, dst-prefix and aliasing behaviour.
* **C39** Facade Decrypt inverts Encrypt — model of the builder value, shared config pointer heap and registry; invariants by induction over call sequences.
* **C40** Facade never panics and never loses errors — model of the builder value, shared config pointer heap and registry; invariants by induction over call sequences.
* **C41** Facade values are independent — model of the builder value, shared config pointer heap and registry; invariants by induction over call sequences.
* **C42** Facade does not modify its inputs — model of the builder value, shared config pointer heap and registry; invariants by induction over call sequences.
* **C43** Config/DataSet behave like a map — model of the builder value, shared config pointer heap and registry; invariants by induction over call sequences.
* **C44** CMAC object computes CMAC of everything written — state machine refined to the one-shot CMAC of the concatenation (Hash.Obj simulation)
* **C45** PMAC object computes PMAC of everything written — state machine refined to the one-shot PMAC of the concatenation; Gray-code offsets by induction
* **C46** One-shot MACs compute the standard algorithms — heap-level model (padding appends to the caller's slice); the loops equal CBC chaining by induction; constructors by case analysis
* **C47** HCTR is the published mode and depends on the whole tweak — Spec: GF(2^128) product bit by bit, polynomial hash of padded M||T plus length block, HCTR encryption. Prove the 4-bit table multiplication equals the bit-serial product (table invariant), then the hash for lengths 0 and 8 mod 16. Prove the general form of what is hashed otherwise, and from it which tweak bytes are ignored.
* **C48** LEA is a block cipher on every key and block — model the key schedule and both directions word by word (Verif/Cipher/Lea.lean), show each round of one direction undoes the other, `Implements` with the shared specification of `cipher.Block`; test vectors evaluated in the kernel as examples.
* **C49** Speck is a block cipher on every key and block — model the key schedule and both directions word by word (Verif/Cipher/Speck.lean), show each round of one direction undoes the other, `Implements` with the shared specification of `cipher.Block`; test vectors evaluated in the kernel as examples.
* **C50** Simon is a block cipher on every key and block — model the key schedule and both directions word by word (Verif/Cipher/Simon.lean), show each round of one direction undoes the other, `Implements` with the shared specification of `cipher.Block`; test vectors evaluated in the kernel as examples.
* **C51** HIGHT is a block cipher on every key and block — model the key schedule and both directions word by word (Verif/Cipher/Hight.lean), show each round of one direction undoes the other, `Implements` with the shared specification of `cipher.Block`; test vectors evaluated in the kernel as examples.
* **C52** RC5 is a block cipher on every key and block — model the key schedule and both directions word by word (Verif/Cipher/Rc5.lean), show each round of one direction undoes the other, `Implements` with the shared specification of `cipher.Block`; test vectors evaluated in the kernel as examples.
* **C53** RC6 is a block cipher on every key and block — model the key schedule and both directions word by word (Verif/Cipher/Rc6.lean), show each round of one direction undoes the other, `Implements` with the shared specification of `cipher.Block`; test vectors evaluated in the kernel as examples.
* **C54** RC2 is a block cipher on every key and effective key length, and panics on the rest — key expansion with explicit index checks (a failing one is a panic), loop invariants for both loops; rounds as in C48.
* **C55** SM4 is a block cipher on every key and block — model the key schedule and both directions word by word (Verif/Cipher/Sm4.lean), show each round of one direction undoes the other, `Implements` with the shared specification of `cipher.Block`; test vectors evaluated in the kernel as examples.
* **C56** SEED is a block cipher on every key and block — model the key schedule and both directions word by word (Verif/Cipher/Seed.lean), show each round of one direction undoes the other, `Implements` with the shared specification of `cipher.Block`; test vectors evaluated in the kernel as examples.
* **C57** KSEED is a block cipher on every key and block — model the key schedule and both directions word by word (Verif/Cipher/Kseed.lean), show each round of one direction undoes the other, `Implements` with the shared specification of `cipher.Block`; test vectors evaluated in the kernel as examples.
* **C58** ARIA is a block cipher on every key and block — model the key schedule and both directions word by word (Verif/Cipher/Aria.lean), show each round of one direction undoes the other, `Implements` with the shared specification of `cipher.Block`; test vectors evaluated in the kernel as examples.
* **C59** Camellia is a block cipher on every key and block — model the key schedule and both directions word by word (Verif/Cipher/Camellia.lean), show each round of one direction undoes the other, `Implements` with the shared specification of `cipher.Block`; test vectors evaluated in the kernel as examples.
* **C60** CAST is a block cipher on every key and block — model the key schedule and both directions word by word (Verif/Cipher/Cast.lean), show each round of one direction undoes the other, `Implements` with the shared specification of `cipher.Block`; test vectors evaluated in the kernel as examples.
* **C61** CAST-256 is a block cipher on every key and block — model the key schedule and both directions word by word (Verif/Cipher/Cast256.lean), show each round of one direction undoes the other, `Implements` with the shared specification of `cipher.Block`; test vectors evaluated in the kernel as examples.
* **C62** IDEA is a block cipher on every key and block — model the key schedule and both directions word by word (Verif/Cipher/Idea.lean), show each round of one direction undoes the other, `Implements` with the shared specification of `cipher.Block`; test vectors evaluated in the kernel as examples.
* **C63** CLEFIA is a block cipher on every key and block — model the key schedule and both directions word by word (Verif/Cipher/Clefia.lean), show each round of one direction undoes the other, `Implements` with the shared specification of `cipher.Block`; test vectors evaluated in the kernel as examples.
* **C64** KASUMI is a block cipher on every key and block — model the key schedule and both directions word by word (Verif/Cipher/Kasumi.lean), show each round of one direction undoes the other, `Implements` with the shared specification of `cipher.Block`; test vectors evaluated in the kernel as examples.
* **C65** MISTY1 is a block cipher on every key and block — model the key schedule and both directions word by word (Verif/Cipher/Misty1.lean), show each round of one direction undoes the other, `Implements` with the shared specification of `cipher.Block`; test vectors evaluated in the kernel as examples.
* **C66** MULTI2 is a block cipher for every accepted number of rounds — model the key schedule and both directions word by word (Verif/Cipher/Multi2.lean), show each round of one direction undoes the other, `Implements` with the shared specification of `cipher.Block`; test vectors evaluated in the kernel as examples.
* **C67** NOEKEON is a block cipher on every key and block — model the key schedule and both directions word by word (Verif/Cipher/Noekeon.lean), show each round of one direction undoes the other, `Implements` with the shared specification of `cipher.Block`; test vectors evaluated in the kernel as examples.
* **C68** 3-Way is a block cipher on every key and block — model the key schedule and both directions word by word (Verif/Cipher/Threeway.lean), show each round of one direction undoes the other, `Implements` with the shared specification of `cipher.Block`; test vectors evaluated in the kernel as examples.
* **C69** PRESENT is a block cipher on every key and block — model the key schedule and both directions word by word (Verif/Cipher/Present.lean), show each round of one direction undoes the other, `Implements` with the shared specification of `cipher.Block`; test vectors evaluated in the kernel as examples.
* **C70** bencode.Unmarshal terminates without panic on every input — Model the recursive descent with fuel and an explicit hang outcome, and prove by induction on the fuel that twice the input length is enough and that no panic is reachable (panics carrying an error are the decoder's own exceptions and are modelled as returned errors).
* **C71** bencode.Unmarshal into any accepts exactly the canonical encodings — Specify the wire form (Spec.lean, decimal numbers by Lean's toString) and prove soundness by induction on the fuel and completeness by structural induction on the value.
* **C72** bencode.Marshal is canonical and inverted by Unmarshal — Model map enumeration as an arbitrary permutation handed to the encoder, prove that sorting distinct keys has one result, and combine with C71.
* **C73** A bencode Decoder reads a stream value by value and counts its bytes — Carry the unread input and Offset as decoder state; soundness and completeness lemmas of C71 in the form with an arbitrary remainder; induction over the sequence.
* **C74** bencode.Unmarshal into a map — Model the reflective path for this one target type, prove round trip and well-formedness, and show by evaluation which non-canonical inputs are accepted.
* **C75** bencode slices and arrays survive a round trip — Model the path for []any targets (the closing e is read as an element) and the IsNil call on arrays, and prove that both always fail; prove the round trip through any.
* **C76** MD2 computes RFC 1319 for every call history — Buffered-digest library Verif/Hash/Stream.lean (invariant: state = fold of the compression over the full blocks, buffer = the rest), model Md2.lean against RFC 1319 in Md2Spec.lean; simulation over histories.
* **C77** SM3 computes GB/T 32905 for every call history and can be saved and restored — As C76, with the round-by-round refinement of block to the standard's CF (message expansion, table of rotated constants) and a save/restore lemma.
* **C78** HAS-160 computes TTAS.KO-12.0011 for every call history — As C76; the in-place rotation of register names in the code is related to the shifting five-tuple of the standard by an invariant over the 80 steps.
* **C79** belt-hash computes STB 34.101.31 for every call history — As C76; belt block cipher and sigma1/sigma2 specified separately and the code refined to them.
* **C80** BASH digests do not depend on how the message is split — Model parametric in the permutation, specification of the sponge; invariant that nothing stands behind the block in the buffer, kept by writes that fit; counterexample for longer writes by kernel evaluation.
* **C81** GOST R 34.11-94 computes RFC 5831 over the supplied cipher for every call history — Model Gost94.lean parametric in the cipher; Gost94Spec.lean states RFC 5831 (key generation, encryption, the psi mixing as a linear recurrence, the sum modulo 2^256); refinement of step, then of the append-buffer digest over histories.
* **C82** Streebog computes RFC 6986 for every call history and can be saved and restored — Model Streebog.lean (tables and the linear layer as in the code) against RFC 6986 in StreebogSpec.lean; fold invariant over the append buffer; save/restore lemma; the violations by concrete heaps.
* **C83** GOST key trees return the uncached key whatever the history — State machines Kdf/Tree.lean with the cache and the handed-out slice; uncached trees in TreeSpec.lean; invariant: the cached key is the key of the recorded index.
* **C84** PBKDF2 computes RFC 8018 for every password, salt, count and length — Model with the in-place T and U of the code and with a heap for the GOST variant's appends; Pbkdf2Spec.lean is RFC 8018; induction over blocks and iterations; big.Int xor related to bytewise xor.
* **C85** PKCS #12 key derivation computes RFC 7292 for every input — Model with the code's big-integer addition and re-padding of each block (Kdf/P12.lean); P12Spec.lean states B.2 on byte strings modulo 256^v; induction over blocks.
* **C86** Counter, feedback and pipeline derivation compute SP 800-108 — Model of the byte-level counter and length encoders (Kdf/Kb.lean), KbSpec.lean from the standard; counters related to numbers by induction, one shared loop lemma.
* **C87** GOST key tree, prf+ and the SM2 derivation return their standards' values — Kdf/Misc.lean with byte and 32-bit counters; MiscSpec.lean; induction over blocks; non-termination for every amount of fuel.
* **C88** OpenPGP S2K computes RFC 4880 — Kdf/Misc.lean (namespace S2k), spec by repeated strings; induction over passes; hang for every fuel and timer.
* **C89** bcrypt_pbkdf arranges blocks and rounds as defined — Kdf/Misc.lean (namespace BcryptKdf) parametric in SHA-512 and the bcrypt hash; invariant: after b blocks exactly the positions congruent to less than b are final.
* **C90** EC-GDSA signatures verify, and verification decides as ISO 14888-3 says — Model over an abstract group of prime order with coordinates (Pub/Ec.lean, Pub/EcGdsa.lean); specification in the field of integers modulo q; algebra in ZMod q, induction over the retry loop.
* **C91** EC-KCDSA signatures verify, and verification decides as ISO 14888-3 says — Model in Pub/EcKcdsa.lean, specification on octet strings (EcKcdsaProps.lean); the big-integer xor related to the octet-wise one.
* **C92** EC-SDSA, EC-OSDSA and EC-FSDSA sign and verify as ISO 14888-3 says — One model with a flag for the optimised scheme plus one for EC-FSDSA (Pub/EcSchnorr.lean), the hash object as the bytes written to it; induction over the retry loop.
* **C93** EC-RDSA signatures verify, and verification decides as ISO 14888-3 and RFC 7091 say — Model in Pub/EcRdsa.lean; specification in ZMod q; induction over the retry loop.
* **C94** BIP-340 signatures verify, and verification decides as BIP-340 says — Model in Pub/Bip340.lean; specification in ZMod n with the even-y representative of a point; induction over the retry loop and the batch.
* **C95** GOST curve arithmetic is the group law — Model in Pub/Gost.lean; Mathlib's group of points of a Weierstrass curve as the specification; induction over the double-and-add loop.
* **C96** GOST R 34.10 signatures verify, and verification decides as RFC 7091 says — Model in Pub/Gost.lean; specification with points of the curve and ZMod q; C95 for the scalar multiplications; induction over the retry loop.
* **C97** GOST keys survive their encoding and the VKO key agreement agrees — Model in Pub/Gost.lean; C95 for the scalar multiplications and the commutativity of the group.
* **C98** Conversion between the Weierstrass and Edwards forms of GOST curves is a bijection of the curves — Model in Pub/Gost.lean; computation in ZMod p.
* **C99** ElGamal decryption inverts encryption, and the homomorphic operation multiplies plaintexts — Model in Pub/ElGamal.lean; powers in ZMod p as the specification; induction over the padding loop and over the list of ciphertexts.
* **C100** ElGamal signatures verify, and verification decides by the ElGamal equation — Model in Pub/ElGamal.lean; the ElGamal equation in ZMod p as the specification; induction over the nonce and generator loops.
* **C101** EGDSA signatures verify, and verification decides by the ElGamal equation — Model in Pub/ElGamal.lean; the same specification as C100.
* **C102** LM-OTS one-time signatures verify, a key signs once, and encodings round-trip — Model in Pub/Lms.lean, hash function arbitrary; digits, checksum, chains as a small specification; induction over chains and lists; single use by induction over histories.
* **C103** A forged LM-OTS signature yields a collision or a preimage — Antichain property of the digit strings from the checksum; chains walked from two starting points; the collision is one of an explicit finite list of inputs.
* **C104** LMS signatures verify under the Merkle root, and keys and signatures round-trip — Model in Pub/Lms.lean; a recursive Merkle tree as the specification; loop invariant over the leaves for the tree array; induction over the path.
* **C105** Over every history an LMS key uses each index once and signs exactly 2^h messages — State machine over events; induction over the history with the index as invariant.
* **C106** An accepted LMS signature is one of the key's one-time signatures, or a collision — Induction over the authentication path against the recursive Merkle tree, the collision among explicit finite lists of inputs.
* **C107** HSS signatures verify over every history, and verification decides by the chain of levels — Inductive chain of keys as the invariant; an inductive definition of a valid signature as the specification.
* **C108** SDSA signatures: verification decides the scheme and signatures verify — Model in Pub/Kcdsa.lean; group laws in ZMod P; induction over the attempts.
* **C109** KCDSA signatures verify, verification decides the scheme, and key derivation is the standard's — Model in Pub/Kcdsa.lean; values of byte strings modulo powers of two; group laws in ZMod P.
* **C110** Rabin encryption round-trips, decryption never panics, and key generation — Model in Pub/Rabin.lean; square-and-multiply and extended Euclid by invariants; roots by Fermat and the Chinese remainder theorem; the primality test reduced to one Euler test for numbers 3 modulo 4.
* **C111** Diffie-Hellman: both sides get the same secret, peers' keys are checked, and the groups are sound — Model in Pub/Dh.lean with exponents as numbers and points as elements of a group; agreement by exponent laws; the moduli checked by kernel evaluation of square-and-multiply.
* **C112** ECIES: decryption inverts encryption, rejects everything else, and never panics — Model in Pub/Ecies.lean on the group curves of Pub/Ec.lean and Pub/Dh.lean; key derivation by induction on the number of hashes; CTR as keystream; acceptance characterised by splitting the ciphertext.
* **C113** Binary elliptic curves compute the group law — Model in Ell/Bin.lean; polynomial arithmetic proved against Mathlib's polynomials over GF(2) (Ell/BinField.lean), the group law against WeierstrassCurve.Affine.Point (Ell/BinProps.lean), multiplication by an invariant of the loop.
* **C114** Koblitz curves over prime fields compute the group law — Model in Ell/Bit.lean; Jacobian formulas proved against WeierstrassCurve.Affine.Point; loop invariant; order of the named base points by evaluation of the proved loop in the kernel.
* **C115** The constants of the named curves are right — Constants generated from the source (Ell/NamedData.lean); a double-and-add loop in Jacobian coordinates proved against Mathlib's group (Ell/Jac.lean) and evaluated in the kernel for the order; the maps by modular arithmetic for all points.
* **C116** Fernet tokens — Model in Fernet/{Base64,Model}.lean, the token format and the window as a separate specification (Fernet/Spec.lean), proofs in Fernet/{Lemmas,Props}.lean.
* **C117** FF1 format-preserving encryption — Model with strings as bytes and big.Int parsing/printing in Fpe/Model.lean; SP 800-38G as separate specification on lists of numerals (Fpe/Spec.lean); Feistel inverse by induction over the rounds.
* **C118** FF3 format-preserving encryption — Model in Fpe/Model.lean; specification on lists of numerals in Fpe/Spec.lean; rounds of strings shown to follow rounds of the specification, inverse by induction.
* **C119** Hash_DRBG follows SP 800-90A over every history of calls — Model state and calls over byte lists; specification over numbers modulo 2^seedlen. Refinement by induction over the call history. Two disagreements are proved with witnesses: the GM generator leaves the tail of a longer buffer unwritten, and the standard's per-request size limit is not enforced.
* **C120** HMAC_DRBG follows SP 800-90A over every history of calls — Model Key/V buffers and the in-place loops; specification of SP 800-90A section 10.1.2 over lists; refinement by induction over the history.
* **C121** CTR_DRBG follows SP 800-90A over every history of calls — Refinement by induction over the history against the SP 800-90A state machine parametrised by the derivation function; the code's derivation function is proved equal to the standard's except when the padded string ends exactly on a block boundary, where a concrete witness shows a different output.
* **C122** BER to DER conversion — Model the recursive reader with explicit offsets and the two encoders. Specification: inductive relation between value trees and BER octet strings, and the DER function. Correctness by mutual induction over the encoding; totality and soundness by induction over the remaining input; violations with witnesses, the size one for an infinite family by induction with Fibonacci numbers.
* **C123** passhash9 strings — Model both calls with Go's base64 decoder (Passhash/P9.lean). Specification: the set of accepted strings as explicit encodings of algorithm, work factor, salt and RFC 8018 value (C84). Injectivity and tightness of base64 by induction.
* **C124** Argon2 password strings — Model strings.Split, strconv.Atoi, Sscanf of the parameter list and base64 as total functions on byte lists (Passhash/Argon2.lean); characterise both calls by equivalences, Argon2 an arbitrary function.
* **C125** JKS key stores — Model readers as functions on the unread bytes (Jks/Codec.lean, Jks/Jks.lean). Specification of file, key protection and store contents in Jks/JksSpec.lean. Equivalence for parsing by composing equivalences of the readers; invariant over histories; loading by a fold over the names.
* **C126** JCEKS key stores — Model in Jks/Jceks.lean on the readers of C125, specification in Jks/JceksSpec.lean. The order of map iteration is a universally quantified list. Round trip of the encryption from the CBC and PKCS7 theorems; equivalence for parsing; invariant over histories.
* **C127** BKS key stores — Model in Jks/Bks.lean on the readers of C125 and the key derivation of C85, specification in Jks/BksSpec.lean. Equivalence for parsing by induction on the entries; round trip of sealed keys from the CBC and PKCS7 theorems; contents as a function of the last call.
* **C128** UBER key stores — On the model of C127 (Jks/Bks.lean).
* **C129** SM2 signatures: what is signed verifies, and nothing else does — Verif/Sm2/Model.lean over an abstract group of prime order; DER from Verif/Asn1/Der.lean; proofs by algebra in ZMod n in Verif/Sm2/SignProps.lean.
* **C130** SM2 encryption: round trip, and exactly which inputs decrypt — Same model; key stream by C87; parse/print inverses; Verif/Sm2/EncProps.lean.
* **C131** SM2 key exchange: both sides derive the same key and confirm each other — State as a record, each call a function; shared point identity in the group; Verif/Sm2/KeProps.lean.
* **C132** The stream ciphers XOR one key stream, whatever the calls — Stream/Base.lean states what a stream cipher is (IsStream) over the memory model; each cipher is a byte generator, shown to be one by an invariant between states and positions. Violations: the int32 loop bound of Panama, the final copy of KCipher-2.
* **C133** Trivium, HC, Panama and KCipher-2 are the published ciphers — Specifications as recurrences on bits or words in separate files (TriviumSpec, HcSpec, PanamaSpec, KCipher2Spec); refinement by relating the packed or circular state with the sequences; tables by complete evaluation in the kernel.
* **C134** Rabbit is not RFC 4503, and distinct IVs can share a key stream — Model of the code and the RFC algorithm side by side; evaluation of both on the zero key; pigeonhole on the 2^64 IVs, whose effect goes through eight counter bits and the state words.
* **C135** Grain-128AEAD seals, opens and streams as specified — Stream/GrainSpec.lean is the bit-level specification; GrainLemmas.lean relates the two 128-bit registers of the code to it bit by bit (32 clocks per step), GrainCrypt.lean the absorption and the key stream, GrainProps.lean states Seal, Open and XORKeyStream over the memory model.
* **C136** The stateful ciphers WAKE and Spritz decrypt what they encrypt — Stream/Wake.lean and Stream/Spritz.lean model one call as a function of state and bytes; the round trip is an induction over calls with equal states on both sides, the word recursion and the key stream are invariants relating the state to the position.
* **C137** Encrypted PKCS #1 PEM keys are those of OpenSSL and open with their password — model the key derivation, header parsing and the seven modes; state the chain, body and stripping in Pem1Spec; prove both directions exactly
* **C138** PKCS #5 v1 and PKCS #12 encrypted private keys — model DER of the algorithm identifier, both derivations, CBC and RC4; state the file and the derivation in Pbes1Spec; prove encoder and decoder exact and the round trip
* **C139** PBES2 private keys: exact files, round trip, and what a decryption means — Model the cipher tables, every Encrypt/Decrypt kind, the three key derivations, file building and parsing with optional ASN.1 fields, and the PEM dispatch; block ciphers, AEADs, scrypt and HMAC are parameters with their contracts. Prove the exact file, the round trip by composing field lemmas, soundness of decryption for all inputs, totality, and the dispatch; prove counterexamples for the panics and deviations from the standards.
* **C140** ZUC-128, ZUC-256 and 128-EEA3 produce the standard key stream — Model of the register, F and the loops on 32-bit words; specification over naturals modulo 2^31-1 with the S-boxes in algebraic form; refinement by a relation kept by every round, tables compared in full by the kernel; then histories by induction.
* **C141** ZucMac and EiaGenerateMac compute 128-EIA3 — Window specification of the key stream at a bit position, invariant of the bit loop, buffer invariant by induction over writes.
* **C142** Zuc256Mac computes the ZUC-256 MAC — As C141 with a window of n words.
* **C143** An XMSS key never uses a one-time index twice and refuses when spent — Function-by-function model of pubkey/xmss over an arbitrary hash; induction over the list of signed messages with the private key bytes as state.
* **C144** XMSS Verify accepts what Sign produced — WOTS chain composition; treehash stack algorithm computes the Merkle tree by induction on subtrees; computeRoot climbs it; induction over layers; leftover address words and stale digest tails shown irrelevant.
* **C145** XMSS Verify judges the message it is given — The buffer m is modelled byte for byte, including the panics of slicing it.
* **C146** XMSS parameter sets fill their n bytes with hash output — Full tables of the three packages; invariant that nodes are zero behind the digest.
* **C147** XMSS one-time signatures on different digests are incomparable — The digits determine the digest; larger digits everywhere give a smaller checksum, whose three digits are its base-16 expansion.
* **C148** Ascon-128 and Ascon-128a seal and open as published — The words of the code are related to the 40-byte state of the paper; the bit-sliced round is shown equal to the S-box on columns and the linear layer; encryption is shown equal to the duplex on padded blocks by induction on the blocks; the slice handling is a generic lemma over a core encryption and decryption.
* **C149** Xoodyak AEAD seals and opens as published — The optimised round is shown equal to the five steps of the paper on planes; Down, Up, Absorb, Crypt and Squeeze are related to the Cyclist specification by induction on the blocks; decryption inverts encryption at the specification; slices in the heap model.
* **C150** Xoodyak streams carry the same ciphertext however they are cut — State machines for writer and reader, with the underlying reader as remaining bytes plus a schedule; invariants that relate buffered and pending bytes to the rest of the plaintext; induction on the rest of the plaintext for the Read loop.
* **C151** Xoodyak hash and MAC, one-shot and as objects — Invariant over Writes relating the object to the blocks absorbed so far; the one-shot functions by refinement of the Cyclist specification.
* **C152** The Cyclist operations follow the published mode — A relation between instance and specification state, kept by each operation, and induction on the sequence.
* **C153** SKIPJACK is a block cipher — Model of key schedule and rounds; Encrypt and Decrypt are shown inverse for every key, and the methods related to a block function on memory for all slices.
* **C154** GOST 28147-89 is a block cipher — Model of key schedule and rounds; Encrypt and Decrypt are shown inverse for every key, and the methods related to a block function on memory for all slices.
* **C155** Magma is a block cipher — Model of key schedule and rounds; Encrypt and Decrypt are shown inverse for every key, and the methods related to a block function on memory for all slices.
* **C156** SHACAL-2 is a block cipher — Model of key schedule and rounds; Encrypt and Decrypt are shown inverse for every key, and the methods related to a block function on memory for all slices.
* **C157** WhirlX is a block cipher — Model of key schedule and rounds; Encrypt and Decrypt are shown inverse for every key, and the methods related to a block function on memory for all slices.
* **C158** TWINE is a block cipher — Model of key schedule and rounds; Encrypt and Decrypt are shown inverse for every key, and the methods related to a block function on memory for all slices.
* **C159** A cascade of two block ciphers is a block cipher — Induction over the blocks of both loops, with memory, for abstract ciphers that satisfy the cipher.Block contract.
* **C160** LION over any hash and stream cipher is a block cipher — Specification as the three LION rounds; exact effect on memory for a dst of any length; inverse by cancelling the three XORs.
* **C161** The Enigma cipher is an involutive rotor machine — Invariant of the rotor loop: t1 stays a permutation, the assigned positions of t3 are paired, the number of unassigned positions below k is even, so a partner is always found; then induction over call histories.
* **C162** Two-key triple DES does not touch its arguments — Heap model of append; crypto/des is an assumed block cipher constructor.
* **C163** The Rabin fingerprint is the message modulo the polynomial — Words as polynomials over ZMod 2 (Mathlib); the mod loop is %ₘ; invariant of the state: congruence and degree bound; the ring buffer holds the last bytes.
* **C164** Content-defined chunking depends on the content only — State machine with a reader that chooses the size of each read; invariant: the ring buffer holds the bytes from head to tail; the search loop keeps the fingerprint of the window at its position. Chunks are specified as a relation shown to be functional.
* **C165** What an RSA private key encrypts its public key decrypts — Model with numbers; Fermat modulo each prime and the Chinese remainder theorem (Mathlib ZMod); blocks as byte lists.
* **C166** RSA without padding round-trips — Euler's theorem for the key, numbers and bytes.
* **C167** bign signatures: what is signed verifies, and only valid signatures are accepted — Model over an abstract group of prime order with arbitrary hash functions for H and belt-hash; exact characterisation of VerifyBytes, correctness of signing for every nonce, range of both nonce generators by induction on the loops, exact reading of the additional data under 65536 octets. Counterexamples: S1 = 0, nonce 0 (gives the private key away), hash shorter than l, overlong r, sign of r ignored, additional data of 65536 octets.
* **C168** Rational and integer helpers compute what their names say — Model over the rationals and compare with Mathlib's ceiling, floor, BitVec rotation, exponential, square root and golden ratio; error bounds for E and Phi, the exact error of the Newton iteration. Counterexamples: Round of every non-negative number that is not a half, Odd changing its argument, overlong rotations, Sqrt not reaching its precision.
* **C169** Random art is the framed walk of the fingerprint — Model with checked array accesses; an invariant relates the field to the number of visits of each square along the path, by induction over the string; the result equals a picture specified from the path alone.
* **C170** Keys from the seeded reader — Model the three readers as functions of the buffer length; exact result of Read and GenerateKey. Counterexamples: two reads give the same bytes, a short read leaves zeros in the key.
* **C171** Threefish-256, -512 and -1024 encrypt as the Skein paper says and decryption inverts — Words as BitVec 64, the numbers of the three files as a record of permutations and rotation lists; the specification is the paper's round function indexed by d; refinement by unrolling eight rounds and inducting on the groups of eight; inversion from the inverse of MIX and of the permutation.
* **C172** belt encrypts blocks as STB 34.101.31 says, and decryption inverts — Model the two loops with their shared statements; the inverse by the symmetry of a cycle under reversal of the four words; the specification is the cycle of the standard already used for belt-hash, generalised over the function G; counterexamples by kernel evaluation and, for the key expansion, for all keys.
* **C173** MAGENTA: a block cipher for keys of 16, 24 and 32 bytes, computing the submission's function up to the byte order in words — Words as BitVec 32; decryption inverts because each pair of rounds undoes itself under swapping and the key order is a palindrome; the specification is the submission's description on byte strings; refinement by an explicit byte view of the words.
* **C174** SAFER ciphers invert, follow the published design, and what a bad round count does — Model rounds and key expansion as written, prove the rounds inverse from LOG/EXP inverse, refine to a specification on byte positions (45^x mod 257, adjacent-pair Hadamard transforms with decimation, round key m rotated by 3(m-1)) for all keys and rounds, and prove the fault for all bad round counts.
* **C175** LOKI97 inverts and is LOKI97 — Model pairs of 32-bit words as written and refine to a specification on 64-bit words; the boxes by an invariant of the shift-and-add product over polynomials over GF(2); the rest bit by bit.
* **C176** E2 decrypts what it encrypts — Model the key schedule with mod_inv as a loop on words with division by zero as a panic; invariant a = x y2, b = x y1, gcd(a, b) = 1; Feistel rounds undone by induction; a concrete key for the panic.
* **C177** SAFER+ is a block cipher — Show that the key schedule and the rounds are those of SAFER SK with eight rounds (specification of C174) for every key; the loop over all of src is modelled as a panic at the ninth byte.
* **C178** SQUARE is the published cipher — Tables equal field multiples of the substitution by full enumeration; linearity of θ and its inverse, inverse on unit bytes extended to words; rounds moved across θ; relation between words and matrix preserved by each step.
* **C179** MARS is the published cipher — Statements as lists of functions, each undone by its counterpart; four rounds equal four rounds on the rotating array; carried scalars by an invariant of the loops; mask bits as windows of ten equal bits.

<!-- coverage -->

## What is modelled

Per package, the files that definitions of the model cite (a cited file is modelled in the lines cited, not always in full), then the
files that no definition cites. Generated from the comments in the model.

* `bencode`: bencode.go, decode.go, encode.go — not: bytes.go, data.go, empty_value.go, errors.go, interface.go, misc.go, multiple_torrent.go, scanner.go, single_torrent.go, tags.go
* `ber`: ber.go (all files)
* `cipher/aria`: aria.go, sbox.go, utils.go (all files)
* `cipher/ascon`: ascon.go, state.go, utils.go (all files)
* `cipher/belt`: belt.go, sboxs.go, utils.go (all files)
* `cipher/camellia`: camellia.go, sboxs.go, utils.go (all files)
* `cipher/cascade`: cascade.go (all files)
* `cipher/cast`: cast.go, sboxs.go, utils.go (all files)
* `cipher/cast256`: cast256.go, sboxs.go, utils.go (all files)
* `cipher/clefia`: clefia.go, sbox.go, utils.go (all files)
* `cipher/des`: des.go (all files)
* `cipher/e2`: e2.go, sbox.go, utils.go (all files)
* `cipher/enigma`: enigma.go (all files)
* `cipher/fpe/ff1`: ff1.go (all files)
* `cipher/fpe/ff3`: ff3.go (all files)
* `cipher/gost`: gost.go, sbox.go, utils.go (all files)
* `cipher/grain`: grain.go, stream.go, utils.go (all files)
* `cipher/hc`: hc.go, hc128.go, hc256.go, utils.go (all files)
* `cipher/hight`: hight.go, sbox.go (all files)
* `cipher/idea`: idea.go (all files)
* `cipher/kasumi`: kasumi.go, sbox.go, utils.go (all files)
* `cipher/kcipher2`: kcipher2.go, sbox.go, utils.go (all files)
* `cipher/kseed`: kseed.go, sbox.go, utils.go (all files)
* `cipher/lea`: lea.go, utils.go (all files)
* `cipher/lion`: lion.go (all files)
* `cipher/loki97`: block.go, keygeneration.go, loki97.go, permutation.go, sboxes.go, ulong64.go (all files)
* `cipher/magenta`: magenta.go, sbox.go, utils.go (all files)
* `cipher/magma`: magma.go (all files)
* `cipher/mars`: mars.go, sbox.go, utils.go (all files)
* `cipher/misty1`: misty1.go, sbox.go, utils.go (all files)
* `cipher/multi2`: multi2.go, utils.go (all files)
* `cipher/noekeon`: noekeon.go, utils.go (all files)
* `cipher/panama`: data.go, panama.go, struct.go, utils.go (all files)
* `cipher/present`: present.go, sbox.go, utils.go (all files)
* `cipher/rabbit`: rabbit.go, sbox.go, utils.go (all files)
* `cipher/rc2`: rc2.go (all files)
* `cipher/rc5`: cipher16.go, cipher32.go, cipher64.go, rc5.go (all files)
* `cipher/rc6`: rc6.go (all files)
* `cipher/safer`: safer.go, sbox.go, utils.go (all files)
* `cipher/saferplus`: saferplus.go, sbox.go — not: utils.go
* `cipher/salsa20`: salsa20.go (all files)
* `cipher/seed`: const.go, seed.go, seed128.go, seed256.go, utils.go (all files)
* `cipher/shacal2`: sbox.go, shacal2.go, utils.go (all files)
* `cipher/simon`: simon.go, simon128.go, simon192.go, simon256.go, utils.go (all files)
* `cipher/skipjack`: skipjack.go (all files)
* `cipher/sm4`: sbox.go, sm4.go, utils.go (all files)
* `cipher/speck`: speck.go, utils.go (all files)
* `cipher/spritz`: hash.go, spritz.go (all files)
* `cipher/square`: square.go, tabs.go, utils.go (all files)
* `cipher/threefish`: threefish.go, threefish1024.go, threefish256.go, threefish512.go, utils.go (all files)
* `cipher/threeway`: threeway.go, utils.go (all files)
* `cipher/trivium`: trivium.go, utils.go (all files)
* `cipher/twine`: sbox.go, twine.go (all files)
* `cipher/wake`: utils.go, wake.go (all files)
* `cipher/whirlx`: utils.go, whirlx.go (all files)
* `cipher/xoodoo/xoodoo`: xoodoo.go (all files)
* `cipher/xoodoo/xoodyak`: aead.go, hash.go, mac.go, xoodyak.go (all files)
* `cryptobin/crypto`: config.go, cryptobin.go, data_set.go, encrypt.go, encrypt_mode.go, encrypt_multiple.go, encrypt_padding.go, error.go, from.go, interface.go, on.go, with.go — not: get.go, to.go, types.go, use.go
* `elliptic/base_elliptic`: curve.go, int.go, utils.go — not: elliptic.go
* `elliptic/bign`: bign_curves.go — not: bign.go, curve.go
* `elliptic/bitcurves`: bitcurve_curves.go, params.go — not: bitcurve.go
* `elliptic/brainpool`: brainpool.go, rcurve.go (all files)
* `elliptic/frp256v1`: frp256v1.go (all files)
* `elliptic/nist`: nist_curves.go — not: nist.go
* `elliptic/nums`: nums_curves.go, rcurve.go — not: nums.go
* `elliptic/secg`: secg_curves.go — not: secg.go
* `elliptic/secp`: secp_curves.go — not: secp.go
* `elliptic/tom`: tom_curves.go — not: tom.go
* `elliptic/weierstrass`: weierstrass_curves.go — not: weierstrass.go
* `elliptic/wtls`: wtls_curves.go — not: wtls.go
* `elliptic/x962`: x962_curves.go — not: x962.go
* `elliptic/x963`: x963_curves.go — not: x963.go
* `fernet`: fernet.go, key.go, utils.go (all files)
* `gm/sm2`: key_exchange.go, keyexchange.go, marshal.go, sm2.go, utils.go — not: compress.go, key_pkcs1.go, key_pkcs8.go
* `gm/sm2/sm2curve`: marshal.go, p256.go, sm2curve.go — not: sm2ec.go, sm2ec_asm.go, sm2ec_asm_ord.go, sm2ec_mqv.go, sm2ec_ord.go
* `gm/zuc`: cipher.go, eea.go, sbox.go, utils.go, zuc.go, zuc256.go, zuc256_mac.go, zuc_mac.go (all files)
* `hash/bash`: bash.go, digest.go, sbox.go, utils.go (all files)
* `hash/belt`: belt.go, digest.go, sbox.go, utils.go (all files)
* `hash/cmac`: cmac.go, utils.go, verify.go (all files)
* `hash/gost/gost34112012`: hash.go (all files)
* `hash/gost/gost34112012256`: esptree.go, kdf.go, tlstree.go — not: hash.go
* `hash/gost/gost341194`: hash.go (all files)
* `hash/has160`: digest.go, has160.go, sbox.go, utils.go (all files)
* `hash/md2`: digest.go, md2.go, sbox.go (all files)
* `hash/pmac`: block.go, pmac.go — not: utils.go, verify.go
* `hash/rabin`: chunker.go, poly.go, rabin.go (all files)
* `hash/sm3`: binary.go, block.go, digest.go, sbox.go, sm3.go, utils.go — not: block_amd64.go, block_arm64.go, block_generic.go, gen_block_ni.go, rand.go, rand_df.go
* `jceks`: binary.go, bks.go, bks_decode.go, bks_encode.go, bks_entry.go, cipher_blockcbc.go, cipher_key.go, cipher_setting.go, consts.go, jceks.go, jceks_decode.go, jceks_encode.go, jceks_entry.go, jceks_utils.go, jks.go, jks_decode.go, jks_encode.go, jks_encryptkey.go, jks_utils.go, uber.go, uber_decode.go, uber_encode.go — not: bks_utils.go, cipher.go, interfaces.go, key.go, key_dsa.go, key_ecdsa.go, key_eddsa.go, key_rsa.go, key_setting.go, key_sm2.go
* `kdf/argon2`: argon2.go, blake2b.go — not: blamka_amd64.go, blamka_generic.go, blamka_ref.go
* `kdf/bcrypt_pbkdf`: bcrypt_pbkdf.go (all files)
* `kdf/gost_pbkdf2`: gost_pbkdf2.go (all files)
* `kdf/gost_prfplus`: gost_prfplus.go (all files)
* `kdf/kbkdf`: kbkdf.go — not: prf.go
* `kdf/kdftree`: kdftree.go (all files)
* `kdf/pbkdf`: pbkdf.go (all files)
* `kdf/pbkdf2`: pbkdf2.go, prf.go (all files)
* `kdf/pgp_s2k`: pgp_s2k.go, s2k_family.go — not: iters.go
* `kdf/smkdf`: smkdf.go (all files)
* `mac`: ansi_retail_mac.go, cbc_mac.go, cbcr_mac.go, cmac.go, emac.go, lmac.go, mac.go, mac_des.go, tr_cbc_mac.go (all files)
* `mode`: bc.go, cfb.go, cfb1.go, cfb16.go, cfb32.go, cfb64.go, cfb8.go, ecb.go, g3413cbc.go, g3413cfb.go, g3413ctr.go, g3413ofb.go, gcfb.go, gofb.go, ige.go, ncfb.go, nofb.go, ocfb.go, ofb.go, ofb8.go, ofbnlf.go, pcbc.go, wrap.go, wrap_pad.go (all files)
* `mode/ccm`: ccm.go (all files)
* `mode/eax`: eax.go (all files)
* `mode/hctr`: hctr.go (all files)
* `mode/mgm`: mgm.go (all files)
* `mode/ocb`: ocb.go — not: random_vectors.go, rfc7253_test_vectors_suite_a.go, rfc7253_test_vectors_suite_b.go
* `mode/ocb3`: ocb3.go (all files)
* `mode/siv`: cipher.go, siv.go (all files)
* `padding`: iso10126.go, iso7816_4.go, iso97971.go, padding.go, pboc2.go, pkcs1.go, pkcs5.go, pkcs7.go, tbc.go, x923.go, zero.go (all files)
* `passhash/argon2`: argon2.go (all files)
* `passhash/argon2fmt`: argon2fmt.go (all files)
* `passhash/passhash9`: passhash9.go (all files)
* `pkcs/pbes1`: cipher.go, cipher_blockcbc.go, cipher_derived_key.go, cipher_rc4.go, cipher_setting.go — not: helper.go
* `pkcs/pbes2`: cipher.go, cipher_cbc.go, cipher_ecb.go, cipher_setting.go, helper.go — not: cipher_ccm.go, cipher_ccm_iv.go, cipher_cfb.go, cipher_cfb1.go, cipher_cfb8.go, cipher_ctr.go, cipher_gcm.go, cipher_gcm_iv.go, cipher_gost_cfb.go, cipher_ofb.go, cipher_rc2_cbc.go, cipher_rc5_cbc.go
* `pkcs1`: cipher.go, cipher_cbc.go, cipher_cfb.go, cipher_ctr.go, cipher_ofb.go, cipher_setting.go, helper.go, pkcs1.go (all files)
* `pkcs12`: cipher.go — not: bmp_string.go, errors.go, key.go, key_dsa.go, key_ecdsa.go, key_eddsa.go, key_gost.go, key_rsa.go, key_setting.go, key_sm2.go, mac.go, mac_pbmac1.go, p12.go, p12_cert.go, p12_crl.go, p12_decode.go, p12_encode.go, p12_interface.go, p12_option.go, p12_safebags.go, p12_utils.go, pkcs12.go
* `pkcs8`: pkcs8.go (all files)
* `pkcs8/pbes1`: cipher.go, pkcs8.go (all files)
* `pkcs8/pbes2`: cipher.go, helper.go, kdf_pbkdf2.go, kdf_scrypt.go, kdf_smpbkdf2.go, pkcs8.go — not: kdf.go
* `pubkey/bign`: bign.go, utils.go — not: curves.go, pkcs1.go, pkcs8.go
* `pubkey/bip0340`: batch.go, bip0340.go, utils.go — not: curves.go, elliptic.go, params.go, pkcs1.go, pkcs8.go
* `pubkey/dh/curve25519`: curve25519.go — not: pkcs8.go
* `pubkey/dh/dh`: dh.go, group.go — not: pkcs8.go
* `pubkey/dh/ecdh`: ecdh.go — not: pkcs8.go
* `pubkey/ecfsdsa`: ecfsdsa.go (all files)
* `pubkey/ecgdsa`: ecgdsa.go — not: curves.go, pkcs1.go, pkcs8.go
* `pubkey/ecies`: ecies.go (all files)
* `pubkey/eckcdsa`: eckcdsa.go — not: curves.go, pkcs1.go, pkcs8.go
* `pubkey/ecosdsa`: ecosdsa.go (all files)
* `pubkey/ecrdsa`: ecrdsa.go (all files)
* `pubkey/ecsdsa`: ecsdsa.go — not: curves.go, pkcs1.go, pkcs8.go
* `pubkey/egdsa`: egdsa.go — not: xml.go
* `pubkey/elgamal`: elgamal.go — not: pkcs1.go, pkcs8.go, xml.go
* `pubkey/gost`: curve.go, edwards.go, gost.go, marshal.go, pkcs8.go, vko.go — not: curves.go, params.go, utils.go
* `pubkey/kcdsa`: kcdsa.go, ppgf.go, utils.go — not: key.go, parameter.go
* `pubkey/lms`: consts.go, hss.go, lmots.go, lmots_params.go, lms.go, lms_params.go, utils.go — not: params.go
* `pubkey/rabin`: rabin.go, utils.go (all files)
* `pubkey/rsa`: encryption.go, lower_safe.go — not: xml.go
* `pubkey/sdsa`: sdsa.go — not: xml.go
* `pubkey/xmss`: hash.go, hash_address.go, params.go, tree.go, utils.go, wots.go, xmss.go (all files)
* `pubkey/xmss/sm3xmss`: params.go, xmss.go (all files)
* `pubkey/xmss/xmss`: params.go, xmss.go (all files)
* `pubkey/xmss/xmssmt`: params.go, xmssmt.go (all files)
* `rand/drbg`: ctr.go, hash.go, hmac.go, utils.go (all files)
* `rand/keygen`: keygen.go (all files)
* `rand/prng`: prng.go (all files)
* `rand/randomart`: randomart.go (all files)
* `rand/zero`: zero.go (all files)
* `tool/alias`: alias.go (all files)
* `tool/bmp_string`: bmp_string.go (all files)
* `tool/bytes`: bytes.go (all files)
* `tool/config`: config.go (all files)
* `tool/error_event`: error_event.go (all files)
* `tool/math`: math.go (all files)
* `tool/math/gcd`: gcditerative.go — not: extended.go, extendedgcd.go, extendedgcditerative.go, gcd.go
* `tool/math/lcm`: lcm.go (all files)
* `tool/recover`: recover.go (all files)

No part of these packages is modelled: `ber/asn1`, `cipher/anubis`, `cipher/anubis2`, `cipher/crypton1`, `cipher/curupira1`, `cipher/kalyna`, `cipher/khazad`, `cipher/kuznyechik`, `cipher/mars2`, `cipher/rijndael`, `cipher/serpent`, `cipher/skein`, `cryptobin/bign`, `cryptobin/bip0340`, `cryptobin/ca`, `cryptobin/crypto/encrypt/aescfb`, `cryptobin/crypto/encrypt/aesecb`, `cryptobin/crypto/encrypt/anubis`, `cryptobin/crypto/encrypt/cast256`, `cryptobin/crypto/encrypt/clefia`, `cryptobin/crypto/encrypt/crypton1`, `cryptobin/crypto/encrypt/e2`, `cryptobin/crypto/encrypt/enigma`, `cryptobin/crypto/encrypt/loki97`, `cryptobin/crypto/encrypt/magenta`, `cryptobin/crypto/encrypt/mars`, `cryptobin/crypto/encrypt/mars2`, `cryptobin/crypto/encrypt/noekeon`, `cryptobin/crypto/encrypt/panama`, `cryptobin/crypto/encrypt/salsa20`, `cryptobin/crypto/encrypt/skipjack`, `cryptobin/crypto/encrypt/square`, `cryptobin/crypto/encrypt/threeway`, `cryptobin/crypto/encrypt/wake`, `cryptobin/crypto/mode/cfb16`, `cryptobin/crypto/mode/cfb32`, `cryptobin/crypto/mode/cfb64`, `cryptobin/crypto/mode/eax`, `cryptobin/crypto/mode/g3413cbc`, `cryptobin/crypto/mode/g3413cfb`, `cryptobin/crypto/mode/g3413ctr`, `cryptobin/crypto/mode/g3413ofb`, `cryptobin/crypto/mode/gofb`, `cryptobin/crypto/mode/mgm`, `cryptobin/crypto/mode/ncfb`, `cryptobin/crypto/mode/nofb`, `cryptobin/crypto/mode/ocb`, `cryptobin/crypto/mode/ocb3`, `cryptobin/crypto/mode/wrap`, `cryptobin/crypto/padding/pkcs1`, `cryptobin/dh/curve25519`, `cryptobin/dh/dh`, `cryptobin/dh/ecdh`, `cryptobin/dsa`, `cryptobin/ecdh`, `cryptobin/ecdsa`, `cryptobin/ecgdsa`, `cryptobin/ecsdsa`, `cryptobin/ed448`, `cryptobin/eddsa`, `cryptobin/elgamal`, `cryptobin/gost`, `cryptobin/rsa`, `cryptobin/sm2`, `cryptobin/ssh`, `ecdh`, `ecdh/key`, `ecdh/test_curue`, `elliptic/bign/curve`, `elliptic/bign/curve/fiat`, `elliptic/curve256k1`, `elliptic/curve256k1/field`, `elliptic/edwards448`, `elliptic/edwards448/field`, `elliptic/koblitz`, `elliptic/secp256k1`, `gm/sm2/sm2curve/field`, `gm/sm9`, `gm/sm9/sm9curve`, `hash/cmac/aes`, `hash/gost/gost34112012512`, `hash/pmac/aes`, `mode/siv/aes`, `pkcs`, `pkcs12/ber`, `pkcs12/enveloped`, `pkcs7`, `pubkey/dsa`, `pubkey/ecdsa`, `pubkey/ed448`, `pubkey/x25519`, `pubkey/x448`, `ssh`, `tool/binary`, `tool/cipher`, `tool/encoding`, `tool/errors`, `tool/expect`, `tool/hash`, `tool/memory`, `tool/pem`, `tool/test`, `tool/utils`, `tool/xor`, `x509`, `x509/fipstls`.

## Findings

Proved counterexamples: points where the code as written does not do what the property asks.

* `C01_pkcs7_bs256_violated` — The boundary: with block size 256 an empty text does not round-trip (256 zero bytes come back).
* `C02_trailing_zero_accepted_violated` — The strict reading of C02 (only `k ≥ 1` copies of `k`) fails: a final zero byte is accepted.
* `C08_pkcs1_length_violated` — The padded block has one byte more than the block size (for the block types 00, 01, 02).
* `C08_pkcs1_long_violated` — Texts of 256 bytes and more never round-trip when padding is applied: the length byte wraps.
* `C10_spare_capacity_clobbered_violated` — The unconditional claim fails: padding the first 3 bytes of an 8-byte buffer overwrites the other 5.
* `C12_pcbc_in_place_violated` — C12 does not hold as stated: with dst = src, which the API accepts, the result is not PCBC.
* `C14_ige_setIV_violated` — C14 does not hold for `SetIV`: it does not restore the constructor's state.
* `C17_g3413cbc_dec_pieces_violated` — C17 does not hold for the GOST CBC decrypter: its register is never advanced, so decrypting in two calls differs from decrypting in one.
* `C21_cfbSeg_violated` — C21 does not hold: for CFB16 with a 16-byte cipher (e.g. AES) the output is not SP 800-38A CFB-16.
* `C26_gcfb_violated` — C26 fails beyond 1024 bytes: 1032 zero bytes give a ciphertext that is not the RFC 4357 one.
* `C27_gofb_violated` — C27 fails when `N4` reaches `0xFEFEFEFC`: the sum is then `2^32`, which is `1` modulo `2^32 - 1`; the code leaves it at `0`.
* `C28_g3413cfb_in_place_violated` — C28 CFB fails for decryption in place: the ciphertext of six zero bytes, decrypted in place with the same key, IV and segment size, is not six zero bytes.
* `C29_cfbSeg_violated` — C29 does not hold for CFB32: two calls of 1 and 3 bytes differ from one call of 4 bytes.
* `C29_g3413cfb_violated` — C29 fails for GOST R 34.13 CFB with full-block segments: after any call shorter than a segment, the next non-empty call panics.
* `C29_gofb_violated` — C29 fails for GOFB: 500 bytes and then 8 bytes give another key stream than 508 bytes at once (all plaintext bytes zero), because every call restarts the counters.
* `C29_ncfb_violated` — C29 does not hold for NCFB.
* `C29_nofb_violated` — C29 does not hold for NOFB: calls of 1 and 1 bytes differ from one call of 2 bytes.
* `C30_wrap_8byte_cipher_cleartext_violated` — C30 finding: the constructor accepts ciphers with 8-byte blocks; wrapping then leaves the whole payload in clear: whatever the cipher and the key, bytes 8.. of the result are the plaintext.
* `C31_unwrapPad_bad_padding_accepted_violated` — C31 is violated: a value whose padding bytes are **not** zero is accepted and delivered.
* `C31_unwrapPad_padded_zeroed_violated` — C31 is violated: for **every** key and every plaintext longer than 8 bytes whose length is not a multiple of 8, unwrapping its correct RFC 5649 value into a buffer of the required size delivers zeros: the padding check is inverted.
* `C31_wrapPad_unaligned_violated` — C31 is violated: no plaintext whose length is not a multiple of 8 can be wrapped.
* `C32_seal_inplace_violated` — C32 violated: `Seal(p[:0], nonce, p, ad)` (exact overlap, allowed by `cipher.AEAD`) produces a ciphertext that `Open` rejects.
* `C33_blocksize_violated` — C33 violated: the constructor accepts an 8-byte cipher, with which every `Seal` panics.
* `C33_open_append_violated` — C33 violated: with `dst = [3, 10]` and a one-byte plaintext `143`, `Open(dst, …)` returns `[3]` instead of `[3, 10, 143]`: both a byte of dst and the plaintext are lost.
* `C34_open_short_violated` — C34 violated: a received ciphertext shorter than the tag makes `Open` panic; no error is returned.
* `C35_open_dst_violated` — C35 violated: with a non-empty dst, `Open` never accepts: it compares the tag with more bytes than the tag has.
* `C35_open_inplace_violated` — C35 violated: `Open(ct[:0], nonce, ct, ad)` accepts every ciphertext that is not shorter than the tag: the received tag is overwritten with the computed one before the comparison.
* `C35_seal_clobbers_violated` — C35 violated: `Seal` overwrites the caller's bytes behind the plaintext, when the plaintext is a part of a longer buffer.
* `C35_seal_inplace_violated` — C35 violated: `Seal(p[:0], nonce, p, ad)` (exact overlap) gives a ciphertext that `Open` rejects, because the checksum is taken from the already overwritten plaintext.
* `C36_nonce_size_violated` — C36 violated: the constructor accepts a nonce size above 15, and then `Seal` panics for every input.
* `C36_open_max_violated` — C36 violated: a plaintext of the maximal size can be sealed, but opening any ciphertext of that length panics.
* `C36_open_release_violated` — C36 violated: `Open` of a ciphertext with a wrong tag returns an error, but the plaintext blocks are left in the memory behind dst.
* `C36_seal_inplace_violated` — C36 violated: `Seal(p[:0], nonce, p, ad)` (exact overlap) of a five-byte plaintext gives a ciphertext that `Open` rejects, because the checksum is taken from the already overwritten plaintext.
* `C37_open_inplace_violated` — C37 violated: `Open(ct[:0], ct)`, which the documentation of `Open` allows. An authentic message of more than 16 bytes panics; one of 1 to 16 bytes is rejected (unless the plaintext happens to be the beginning of the synthetic IV), because the decrypted bytes overwrite the received IV before it is compared.
* `C37_release_violated` — C37 violated: whenever `dst` has room, the CTR decryption of the received bytes is in the memory behind `dst` when `Open` returns, whether or not authentication failed.
* `C37_seal_inplace_violated` — C37 violated: with `dst` exactly over the plaintext (`Seal(p[:0], p)`, which the documentation of `Seal` allows) and 1 to 16 bytes of plaintext, the synthetic IV overwrites the plaintext before it is encrypted: the output contains the encryption of the IV's first bytes and depends on the plaintext only through the IV. Longer plaintexts panic.
* `C38_empty_batch_violated` — C38 violated: a cipher that says it encrypts batches of no blocks makes both calls loop forever.
* `C38_long_dst_violated` — C38 violated: `Encrypt` accepts an output buffer one byte longer than the plaintext, and hashes that byte too; the ciphertext does not decrypt.
* `C38_small_block_violated` — C38 violated: `NewHCTR` accepts an 8-byte block cipher; then the last 8 bytes of the first block of the plaintext do not enter the encryption of a 16-byte message, so nothing can decrypt it.
* `C39_iv_in_spare_capacity_violated` — C39 (violation): an iv stored in the spare capacity of the data is overwritten by the padding before it is used, so Decrypt with the iv that was passed (a copy of it, made before the call) does not give the data.
* `C39_ocfb_padding_violated` — C39 (violation): OCFB with any padding, on every cipher with a block of more than 2 bytes.
* `C39_padding_with_tag_violated` — C39 (violation): with a padding and a tag or prefix that is not a multiple of the block size, `Decrypt` refuses every ciphertext that `Encrypt` produced. So OCFB never works with a padding (its prefix is `bs+2`), and GCM/CCM with a padding only when the tag is a multiple of the block.
* `C39_zero_padding_violated` — C39 (violation): Zero padding loses the zero bytes at the end of the data, in every mode that keeps the length.
* `C40_handler_panic_escapes_violated` — C40 (violation): a handler that panics makes `Encrypt` panic: the second trigger is outside of `Recover`.
* `C40_handler_panic_loses_error_violated` — C40 (violation): a handler that panics on one error and not on another makes `Encrypt` lose the cipher's error (here 7): only the handler's panic (here 1) is recorded.
* `C41_package_level_shared_violated` — C41 (violation): two values made with the package-level `FromString("a")` and `FromString("b")` share one configuration: `SetMode(…, cfg)` or `PutConfig` on the first changes the second.
* `C41_set_config_nil_violated` — C41 (violation): `SetConfig(nil)` on one value makes every later `PutConfig` on every other value of the package panic.
* `C41_sibling_errors_violated` — C41 and C40 (violation): two values derived from one base; the error recorded in the first is replaced by the error recorded in the second.
* `C41_sibling_handlers_violated` — C41 (violation): the handler registered on one value is replaced by the handler registered on its sibling.
* `C42_ocfb_decrypt_violated` — C42 (violation): `Decrypt` in OCFB mode overwrites the ciphertext it is given; the second `Decrypt` of the same buffer fails.
* `C42_padding_overwrites_spare_capacity_violated` — C42 (violation): `Encrypt(buf[:5])` overwrites `buf[5:8]`.
* `C43_nil_map_violated` — C43 (violation): after `WithData(nil)`, `Set` panics.
* `C43_with_data_aliases_violated` — C43 (violation): after `WithData(m)` the object is the caller's map: two objects given the same map are one, and the caller's own writes show.
* `C44_256_violated` — For 256-bit blocks the code keeps only the low byte of the reduction constant 0x425, so its tag of the empty message is not the CMAC value.
* `C45_64_violated` — For 64-bit blocks the code doubles with 0x87 instead of 0x1b, so it does not compute PMAC over such ciphers.
* `C45_long_message_violated` — With a 64-bit block cipher, a message of more than 256 KiB makes `Write` panic.
* `C45_sum_destroys_violated` — `Sum` overwrites the running digest, against `hash.Hash`'s contract and the comment in the code: the same `Sum` made twice returns two different values.
* `C46_cbcr_collision_violated` — For every block cipher and key, two different messages — equal but for the top bit of the first byte of the unfinished last block — have the same CBCR MAC.
* `C46_cbcr_rotation_violated` — The CBCR MAC of a message with an unfinished block is not the one of the standard.
* `C46_clobbers_violated` — `MAC` writes into memory behind the message it was given: here the caller's buffer holds a message of one byte and, after it, other data of the caller.
* `C46_cmac_64_violated` — 64-bit block ciphers get the constant of 128-bit ones: the CMAC is not the standard one.
* `C46_cmac_empty_violated` — The CMAC of the empty message is a whole block whatever size was requested.
* `C46_lmac_size_violated` — LMAC ignores the tag size it was asked for: every tag is a whole block, and so says `Size`.
* `C46_trcbc_collision_violated` — With the full block as tag size, which the constructor accepts, a TrCBC MAC of a message that is not a whole number of blocks is also the MAC of the padded message: for every cipher and key.
* `C47_other_lengths_violated` — C47 violated: on a 33-byte message the output is not that of HCTR.
* `C47_tweak_ignored_violated` — C47 violated: for a message of `16 k + r` bytes with `0 < r < 16`, the only bytes of the tweak that have any effect are the first `16 - r` and those in positions `r … 2r - 1`: two objects whose tweaks agree there encrypt and decrypt identically. (The second block of the hash takes the tweak from position `r` instead of `16 - r`.)
* `C57_kseed_violated` — C57: with a longer `dst` and `src` the bytes after the block are overwritten with zeros. So `NewCipher` is not a block cipher as described.
* `C66_multi2_violated` — C66: with longer slices the bytes after the block are overwritten with zeros.
* `C67_noekeon_violated` — C67: with longer slices the bytes after the block are overwritten with zeros.
* `C74_bencode_map_exact_violated` — The exactness that `any` targets have does not hold for maps: keys in the wrong order, a repeated key (the last wins), a key given as a one-element list and a key given as an empty dictionary are all accepted.
* `C75_bencode_array_violated` — A Go array (other than `[n]byte`) is never encoded: `Marshal` returns an error for it, for every enumeration order and whatever it contains, also when it is the element of a list or of a map.
* `C75_bencode_slice_violated` — . A `[]any` never survives: no input whatever makes `Unmarshal` into a `[]any` deliver an element, and the encoding of every list is rejected, although `Marshal` wrote it.
* `C80_bash_long_write_violated` — A digest other than the one of STB 34.101.77 for one `Write` of more than a block.
* `C80_bash_split_writes_violated` — The same 192 bytes written to `New224()` at once and in two pieces give two digests.
* `C82_streebog_restore_aliases_violated` — Contrary to `encoding.BinaryUnmarshaler`, the object keeps the caller's slice: when the caller reuses it, the digest of the restored object changes, although nothing was written to the object.
* `C82_streebog_restore_clobbers_violated` — The other direction: a `Write` to the restored object changes the caller's memory behind the saved bytes.
* `C82_streebog_restore_malformed_violated` — A restored object may panic: 64 zero bytes after the fixed part are taken as pending input, and `Sum` writes behind them. `UnmarshalBinary` had returned no error.
* `C83_tlstree_alias_violated` — The caller of `DeriveCached` can change the key that later calls return for the same record.
* `C83_tlstree_first_key_zero_violated` — A new TLS tree asked first for record 1 returns 32 zero bytes whatever the root key is: the cache of a new tree counts as filled for sequence number zero. This is so for five of the six parameter sets of the package.
* `C84_gost_pbkdf2_block_password_violated` — A password of exactly one block (64 bytes) is padded with another block of zeros, so the key is not the PBKDF2 key.
* `C84_gost_pbkdf2_salt_overwritten_violated` — When password and salt are neighbouring parts of one buffer, the zero padding of the password overwrites the salt before it is used: the key is the one for a salt of zeros, and the caller's salt is gone.
* `C84_pbkdf2_iterations_unchecked_violated` — Iteration counts below one, which RFC 8018 excludes, silently act as one: the caller gets no error.
* `C85_pkcs12_iterations_unchecked_violated` — Counts below one silently act as one.
* `C86_counter_wraps_violated` — SP 800-108 stops with an error when the counter of `r` bytes cannot number the blocks. `CounterModeKey` lets the counter wrap: with `r` bytes of counter block `256 ^ r + i` repeats block `i`, and with `r = 0` all blocks are equal.
* `C87_kdftree_255_violated` — Missing from `C87_kdftree_partial`: 255 digests, which the length check admits. The byte counter then never exceeds the bound, and the call does not return, however long it runs.
* `C88_tune_never_returns_violated` — `KeyWithTune` should return a key also when asked to choose the count (`iterations = 0`). It never returns, whatever the clock does.
* `C90_bytes_violated` — The condition on the order is needed: on a curve with more points than `256^plen`, `SignBytes` can panic.
* `C90_high_s_violated` — C90, against the range check of the standard: with any accepted signature `(r, s)`, the pair `(r, s + q)` is accepted too, although it is not valid.
* `C90_last_key_violated` — The exported form of the key pair `d = q - 1` is refused by `NewPrivateKey`, on every curve.
* `C90_verifyBytes_panics_violated` — The panic is reached from bytes: `VerifyBytes` of the encoding of `(q, 1)`, when `q` fits the encoding.
* `C90_verify_panics_violated` — C90, against a verdict on every input: a signature whose `r` is the group order, or any multiple of it, makes `VerifyWithRS` panic, for every public key and message.
* `C91_bytes_violated` — The condition on the order is needed: on a curve whose order is longer than the field (the repository has secp160r1 and secp160k1), `SignBytes` panics as soon as `r` is longer than the field.
* `C91_zero_r_violated` — A signature with `r = 0` (valid as octets) is returned by `SignToRS` and rejected by `VerifyWithRS`.
* `C92_fsdsa_retry_violated` — The first number drawn is discarded because `s = 0`, as the standard says; the second attempt hashes the bytes of both attempts, and the signature returned is rejected.
* `C92_fsdsa_verify_panics_violated` — C92, against a verdict on every input: an `r` longer than two coordinates makes `VerifyWithRS` of EC-FSDSA panic, for every key and message.
* `C92_last_key_violated` — The exported form of the key `d = q - 1` is refused by `NewPrivateKey`, on every curve.
* `C92_retry_violated` — The first number drawn is discarded because its digest is 0 modulo the order, as the standard says; the second attempt hashes the bytes of both attempts, and the signature returned is rejected.
* `C92_verify_panics_violated` — C92, against a verdict on every input: an `r` longer than a digest makes `VerifyWithRS` panic, for every key and message, unless it is 0 modulo the order.
* `C93_retry_violated` — The first number drawn is discarded because `s = 0`, as the standard says; the second attempt hashes the message twice, and the signature returned is rejected.
* `C94_batch_empty_violated` — `BatchVerify` with messages but no keys panics instead of rejecting.
* `C94_verify_panics_violated` — C94, against a verdict on every input: an `r` longer than a coordinate makes `VerifyWithRS` panic, for every key and message.
* `C94_zero_s_violated` — `SignUsingKToRS` returns a valid signature with `s = 0`, and `VerifyWithRS` rejects it.
* `C95_add_infinity_violated` — The point at infinity `(0, 0)`, which `Add` accepts, is not neutral.
* `C95_add_opposite_violated` — C95, against the group law for opposite points: `Add` of a point and its opposite is not the point at infinity `(0, 0)`, for any point of any curve that is not its own opposite.
* `C96_double_violated` — C96, against the claim that a signature just made is accepted: with key 3, digest 2 and `k = 9` the signature `(10, 9)` is valid, but verification adds two equal points and rejects it.
* `C96_infinity_violated` — C96, against the claim that only valid signatures are accepted: key 4, digest 2.
* `C97_newPrivateKey_violated` — C97, against the claim that every byte string gives a key or an error: the bytes of `q` make `NewPrivateKey` panic, for every curve.
* `C97_ukm_violated` — C97, against the claim that the key agreement has a result or an error for all inputs: user keying material that is zero modulo `q` makes it panic.
* `C99_decrypt_violated` — C99, against the claim that a ciphertext decrypts or is an error: `c₂ = 0` (or a multiple of `P`) makes `Decrypt` and `DecryptBytes` panic for every key.
* `C99_homomorphic_range_violated` — C99, against the documented rejection of numbers larger than the modulus: `HomomorphicEncTwo` rejects only if both numbers of a ciphertext are larger; with one of them the wrong range is accepted, for every key.
* `C100_ends_violated` — C100. The same at the upper ends: if `(r, 0)` is accepted then so is `(r, p − 1)`, for every `r` that is not a multiple of `p`: a second signature of the same hash.
* `C100_sign_zero_violated` — C100, against the claim that signatures are valid: `Sign` can return `s = 0`, from which the private key follows (`x = m/r`).
* `C100_zero_violated` — C100, against the rejection of invalid signatures: for every key, `r = 0` and `s = 0` is accepted for every hash whose number is a multiple of `p − 1` or zero.
* `C101_sign_zero_violated` — C101, against the claim that signatures are valid: with the random number 0 (`k = −1`) `Sign` returns `s = 0` here.
* `C101_zero_violated` — C101, against the rejection of invalid signatures: for every key, `r = 0` and `s = 0` is accepted for every hash whose number is a multiple of the order of the generator.
* `C102_nonce_violated` — C102, against the claim that every signature verifies: a nonce of another length given by the caller is used for signing (the key is spent) but verification rejects the signature.
* `C104_panic_violated` — C104, full claim false: verification of untrusted bytes panics when they end soon after the one-time signature: for every public key, message and registry, any bytes that start with an index and a registered type code and are one to seven longer than the one-time signature.
* `C104_seed_violated` — A key with a longer seed is restored as a key with another public key.
* `C107_panic_violated` — C107, full claim false: `Verify` panics on signatures that are cut short, for every key with more than one level.
* `C108_genKey_violated` — C108. With a smaller `Q` there are no bytes to draw from: `GenerateKey` never returns.
* `C108_panic_violated` — C108, full claim false: `Verify` and `VerifyASN1` panic on every `r` with more bytes than a hash and `s` in range, for every key and message.
* `C108_retry_violated` — C108, full claim false: a key pair, a number `k` and a message for which `SignUsingK` needs a second attempt; its signature is rejected.
* `C109_kcX_violated` — C109: the derived private key may be zero, which `Sign` then refuses.
* `C109_panic_violated` — C109, full claim false: `Sign` panics for every key pair and message when the block of the hash function is longer than `P` and the random source delivers a number.
* `C110_equal_violated` — C110, violation: with a key of two equal factors the round trip fails.
* `C110_forged_violated` — C110, violation: `Decrypt` accepts a ciphertext that is not the encryption of what it returns.
* `C110_genKey_violated` — C110, violation: 175 = 5·5·7 passes the test, and `GenerateKeyWithBitLength(rand, 1)` gives a key with it; nor are the two factors different.
* `C110_isPrime_one_violated` — C110, violation: the test does not end on the number 1, whatever the number of steps.
* `C110_large_violated` — C110. `Encrypt` does not refuse a plaintext that is too large, and only its residue can come back: a plaintext that is at least `N + 1` as a number is never returned.
* `C110_source_violated` — C110, violation: `GenerateKey` never returns when the random source fails: no error.
* `C110_zero_violated` — C110. A plaintext that is zero as a number (no bytes, or zero bytes only) never decrypts, whatever the key.
* `C111_check_violated` — C111, violation: `Check` accepts 0 and 1, with which the secret is the same for every private key.
* `C111_ec_violated` — C111, violation: on every byte string of another length, or with another first byte, `Check` and `ComputeSecret` panic instead of reporting an error; and the pair `(0, 0)`, which is not on the curve, gives the empty secret whatever the private key.
* `C111_genKey_violated` — C111, violation: modulo a number of at most eight bits no key is ever found.
* `C111_group8192_violated` — C111, violation: the modulus of the group `P8192` has 8188 bits and is not a prime: 697127 divides it.
* `C111_length_violated` — C111, violation: the secret is written without leading zeros, so its length is not that of the modulus.
* `C111_x_violated` — C111, violation: `ComputeSecret` panics on a peer's key of another length.
* `C112_empty_violated` — C112, violation: the empty message has no ciphertext; `Encrypt` gives a nil slice and no error.
* `C112_sha384_violated` — C112, violation: with the parameter set AES256_SHA384 (`size = 48`, `block = 128`, `keyLen = 32`) `Encrypt` panics for every key of a curve with coordinates of at least 64 bytes and every message; on smaller curves it gives an error.
* `C112_shift_violated` — C112, violation: the tag does not separate the message from the shared information. A ciphertext of `m ++ t` made with `s2` is, without the last bytes of the encrypted message, a ciphertext of `m` for other shared information: nobody had encrypted `m`.
* `C112_short_violated` — C112, violation: anyone who knows the public key `Q = d • G` can make a ciphertext on which `Decrypt` panics: a point, fewer bytes than a block, and their tag.
* `C113_add_opposite_violated` — C113, violation: the sum of a point and its opposite is a panic, not the representation `(0, 0)` of the point at infinity.
* `C113_isOnCurve_violated` — C113, violation: `IsOnCurve` panics for every `x` when `y` is zero or is `x`, whether the point is on the curve (as `(1, 0)` is on `y² + xy = x³ + 1`) or not.
* `C113_order_violated` — C113, violation: multiplication of a point with its order panics; the result should be `(0, 0)`.
* `C113_unreduced_violated` — C113, violation: coordinates that are not reduced are accepted: with `(x, y)` also `(x + F, y)` is "on the curve", so that a point has many representations (which `Add` then does not recognise as equal).
* `C114_add_violated` — C114, violation: `Add` of a point and itself, or its opposite, panics; the results should be the double and the point at infinity `(0, 0)`.
* `C114_generateKey_violated` — C114, violation: keys are not compared with the order of the base point: random bytes that make the private key a multiple of the order make `GenerateKey` panic (and larger ones a key that is not reduced).
* `C114_infinity_violated` — C114, violation: `(0, 0)` is not the point at infinity: `Add` of `(0, 0)` and a point is another point, not on the curve.
* `C114_marshal_violated` — C114, violation: `Marshal` of a second coordinate that is too long overwrites the first, without an error or a panic.
* `C114_order_violated` — C114, violation: for every scalar that is a multiple of the order of the point, other than zero, `ScalarMult` panics.
* `C114_unmarshal_violated` — C114, violation: `Unmarshal` does not ask whether the point is on the curve; it takes every pair of coordinates, reduced or not.
* `C114_wraps_violated` — C114, violation: it also panics where the multiple is a point like any other. For every odd scalar other than one whose number is one more than `j` with `j • S = S` — `q + 2` for a point of order `q` — the last addition is that of the point to itself.
* `C115_binary_violated` — C115, violation: four curves of elliptic/x962 have a base point with second coordinate zero and a first one that is too long (a compressed point was taken for it); `IsOnCurve` panics for it.
* `C115_nums_violated` — C115, violation: for the curves numsp256t1, numsp384t1 and numsp512t1 the base point does not become the base point of the other curve, and not even a point of it: `IsOnCurve` is false for the base point in `Params`, and `ScalarBaseMult` of one is another point.
* `C115_prime_violated` — C115, violation: the base points of `secp112r2`, `secp128r2` (whose `A` is not `−3`, but `elliptic.CurveParams` has no other) and Tom-521 are not points of the curve.
* `C115_tom521_violated` — C115, violation: the modulus of Tom-521 has 522 bits, one more than the size given.
* `C116_keys_violated` — The documentation says that a token is accepted if it was signed with *a key in* `k`. Two keys that share their signing half: the token of the second key is authenticated by the first, which decrypts it in place to garbage and fails; the second key then sees the spoiled buffer, and `nil` is returned although the list contains the right key.
* `C116_short_violated` — The documentation says that an invalid token gives `nil`. A key holder's token that stops before the end of the IV makes every receiver with that key panic (slice bounds out of range, fernet.go:112).
* `C116_trailing_violated` — Token strings are malleable: the error of the base64 decoder is ignored, so anything may follow a token, as long as it starts with a character outside the alphabet; the outcome is the same for all keys and times.
* `C117_case_violated` — With a radix from 11 to 36 upper-case messages are accepted but come back in lower case.
* `C117_concurrent_violated` — A `Cipher` must not be shared between goroutines: a schedule exists in which one of two concurrent calls computes a wrong PRF value (so Encrypt returns a string that does not decrypt). Run one after the other, both are right.
* `C117_sign_violated` — A leading minus sign passes the check "is the message in the radix": the string encrypts like the numerals of `radix^u` minus its first half, so decryption returns a string of digits and not the message.
* `C118_case_violated` — With a radix from 11 to 36 upper-case messages are accepted but come back in lower case.
* `C118_key_violated` — The same call with the same key slice: `NewCipher` reverses the caller's key in place, so the second cipher made from it is under another key (unless the key is a palindrome).
* `C118_maxlen_violated` — SP 800-38G allows lengths up to `2⌊log_radix(2^96)⌋`. For even limits the code stops one short: with radix 2, the permitted length 192 is rejected (`n >= c.maxLen`, ff3.go:107).
* `C119_gm_tail_violated` — Longer requests to the GM generator succeed, but only the first digest is written: the rest of the caller's buffer is returned as it was (zeros, if it is new).
* `C119_limit_violated` — SP 800-90A limits one request to 2^19 bits (65536 bytes; `MAX_BYTES_PER_GENERATE` in utils.go is not used): the generators have no limit.
* `C121_df_violated` — Where the last block is full, the code appends a whole block of zeros (`bs - len % bs`, ctr.go:186).
* `C121_output_violated` — With 7 bytes of seed material the first 4 bytes generated are not those of the standard.
* `C122_blowup_violated` — For every `n` there is an input of `4 n + 6` octets for which the call succeeds and returns at least `2 fib (n + 1)` octets: time and memory grow exponentially with the input.
* `C122_empty_violated` — An empty element of indefinite length is valid BER and is refused.
* `C122_leading_zero_violated` — A length with a leading zero octet is valid BER and is refused.
* `C122_overrun_violated` — An element that runs past the end of the element it is in is accepted: the inner string is one octet longer than its container, and what comes out is not the input's value.
* `C122_panic_violated` — Two octets from a peer crash the program: an identifier that never ends, or one followed by no length.
* `C123_password_violated` — With CMAC over Blowfish a password that is empty or longer than 56 bytes panics: when hashing and when comparing with any well formed hash.
* `C123_workfactor_violated` — A stored hash with a work factor above 512 makes the comparison panic instead of failing, whatever the password.
* `C124_fmt_malleable_violated` — A string is not the only spelling of its hash: when the key length is a multiple of three, anything that starts with a character outside the base64 alphabet may be appended.
* `C124_fmt_panic_violated` — Stored strings that are not well formed make the comparison panic instead of returning an error: no passes, a number of lanes that is a multiple of 256, or a key that does not decode to anything.
* `C124_plain_panic_violated` — Stored strings that are not well formed make the comparison panic instead of returning an error.
* `C124_plain_unsalted_violated` — When the random source fails, a hash without salt is returned and no error: two calls with the same password, type and options then give the same string, whatever the two sources delivered.
* `C125_key_panic_violated` — A protected key whose content is shorter than 40 bytes makes the call panic; nothing else does.
* `C125_long_name_violated` — A name of 65536 bytes, of which the first ten are zero, is saved with the length 0: no error is reported, but the file cannot be loaded again.
* `C125_panic_violated` — A file that stops being well formed at a length field with the top bit set makes the program panic, for every password: the hash is checked only after everything has been read.
* `C125_trailing_violated` — Bytes after the hash are ignored.
* `C126_empty_password_violated` — With the empty password any file that loads with another one loads too, and so does any body with no hash or a wrong one: nothing is checked.
* `C126_getters_violated` — The getters of a store to which entries have been added find none of them, whatever the calls: certificates and keys come back nil without an error and no name is listed, because the Add functions store values and the getters look for pointers.
* `C126_lost_error_violated` — A key without certificate: whether `Marshal` reports it depends on the order in which the map is visited. With the key last there is an error; with a certificate after it the error is forgotten and the file lacks the key.
* `C126_panic_violated` — A length field with the top bit set makes the program panic, for every password: the hash is checked only after everything has been read.
* `C126_password_bits_violated` — The top bit of each password byte is ignored: a key protected with one password is opened with every password that has the same low seven bits.
* `C126_resave_violated` — Saving a loaded store loses all its entries: `Marshal` reports success and writes their number but none of them, and the file cannot be loaded: not with the password it was saved with, nor with any other that makes the hash be checked.
* `C127_forgery_violated` — The MAC of version 1, the default, has a key of two bytes. Whoever does not know the password can make a file with entries of their choice that loads with it: one of 65536 candidates is accepted, for every password.
* `C127_open_any_violated` — Once a sealed key has been opened, or before it has been saved, every password opens it.
* `C127_open_panic_violated` — A sealed key whose salt length has the top bit set is loaded without complaint and makes the program panic when it is opened.
* `C127_panic_violated` — A salt length with the top bit set makes the program panic, for every password.
* `C127_resave_violated` — Saving a loaded store that has a sealed key panics, as long as that key has not been opened.
* `C127_reseal_violated` — A sealed key that has been opened is saved sealed with the empty password, whatever its password was.
* `C127_wrong_password_violated` — An attempt to open a sealed key with a wrong password replaces it, when what comes out is correctly padded but not a key: saving the store then succeeds and writes an empty key, whatever had been sealed.
* `C128_short_violated` — A file that decrypts to fewer than 20 bytes makes the program panic: the test meant to prevent it can never be true. For every password and every such plaintext there is one.
* `C129_last_key_violated` — C129. Disagreement: key generation can return the private number `n - 1`, with which signing panics whatever the nonce and the hash are (or asks for another nonce).
* `C129_trailing_violated` — C129. Disagreement: bytes can be added after the ASN.1 encoding of a signature, and the same signature is read.
* `C129_zero_violated` — C129. Disagreement: when the hash cancels the coordinate, the signature returned has first number zero, which no verification accepts. (The standard asks for another nonce.)
* `C130_any_key_violated` — C130. Disagreement: the neutral element is taken as the ephemeral point (the standard refuses it), so one ciphertext, made without any key, decrypts to the message of one's choice under every private key.
* `C130_asn1_panic_violated` — C130. Disagreement: a number that does not fit makes the decryption of the ASN.1 form panic.
* `C130_asn1_violated` — C130. Disagreement: the ASN.1 form is not the only one that is taken: the sign of the numbers does not matter, nor what follows.
* `C130_empty_violated` — C130. Disagreement: no empty message can be encrypted, whatever the random source.
* `C130_panic_violated` — C130. Disagreement: decryption panics on empty input, on input one byte shorter than the shortest ciphertext, and on a point that is not on the curve.
* `C131_infinite_violated` — C131. Disagreement: the one call does not stop when the shared point is the neutral element: the key is then derived from the two identity values alone, which are public.
* `C131_long_id_violated` — C131. Disagreement: in the one call an identity of B that is too long is not an error: all of them count as the same, and as absent.
* `C131_order_violated` — C131. Disagreement: the confirmations of the one call hash the ephemeral point of B before that of A, where the standard (and the interface with a state) has A before B; the octets hashed are the same only if the two points are.
* `C132_kcipher2_copies_plaintext_violated` — with two buffers: for every key and IV and after every history, a call whose buffers do not overlap copies the plaintext to `dst`.
* `C132_panama_long_violated` — for a long call: a call with 2^31 to 2^32 bytes returns normally and has changed nothing, so `dst` does not hold the ciphertext (with `dst = src` the plaintext is left in place).
* `C132_salsa20_nonce_aliased_violated` — The object keeps the caller's nonce slice: when the caller changes it between two calls, the key stream changes.
* `C132_salsa20_nonce_violated` — the documentation asks for a nonce of 16 bytes, of which the last 8 have no effect: two nonces with the same first 8 bytes give the same behaviour in every call, for every key and block function.
* `C132_salsa20_wrap_violated` — for Salsa20 at the end of the counter: with the counter at the last byte, two bytes encrypted in one call use block 2^58, two calls of one byte use block 0 for the second byte.
* `C134_rabbit_iv_violated` — C134 is violated: under every key there are two different 8-byte IVs with the same key stream, forever.
* `C134_rabbit_rfc4503_violated` — C134 is violated: "according to RFC 4503" is false, without and with an IV. (Read backwards, as the RFC prints it, the first byte would be 0xB1, which is not what the code produces either.)
* `C135_grain_der_violated` — C135 (violated): from 128 bytes of additional data on, what is authenticated does not begin with the DER form of its length.
* `C135_grain_forgery_violated` — C135 (violated): ciphertexts can be forged. From the ciphertext of `x ++ p` under additional data `a` of at least 128 bytes, cutting off the first `|x|` bytes gives one that `Open` accepts, with plaintext `p`, under the additional data `a ++ x`, as long as the two lengths take the same number of bytes: no key is needed, only the first bytes of the plaintext.
* `C135_grain_nonce_violated` — C135 (violated): the length of the nonce is not checked. Whatever follows the first twelve bytes of a longer nonce is ignored, so that different nonces give the same key stream; a nonce of fewer than twelve bytes panics, or (`backing` being the bytes up to its capacity) is extended by whatever bytes lie behind it.
* `C136_spritz_same_object_violated` — is violated by Spritz when one object is used in the two directions: a byte encrypted and then decrypted by the same object comes back exactly when two consecutive bytes of the key stream are equal.
* `C136_wake_cuts_violated` — is violated by WAKE when the message is not cut in the same way on both sides: five bytes encrypted in one call do not come back when the first is decrypted in a call of its own, because a call forgets the bytes of the current word.
* `C136_wake_long_violated` — is violated by WAKE for a call of 2^31 bytes or more: the loop counter is an int32, and a call of 2^31 to 2^32 - 1 bytes writes the plaintext to `dst` as the ciphertext.
* `C136_wake_same_object_violated` — is violated by WAKE when the same object is used in the two directions: the second call goes on from where the first ended.
* `C137_wrong_password_undetected_violated` — The documentation says that `IncorrectPasswordError` is returned when a wrong password is detected. The code never detects one: a CBC block of whole blocks under a proper header opens under every password, and when what comes out has no padding, all of it is returned as the result.
* `C138_bmp_unterminated_violated` — Without the terminator this fails: a final NUL is taken for one.
* `C138_count_unchecked_violated` — A count of zero or below, which no standard knows, acts as one.
* `C138_invalid_utf8_passwords_violated` — Bytes that are not UTF-8 are not refused: each becomes U+FFFD, so that different passwords are the same password.
* `C138_rc2_salt_size_violated` — RFC 8018, A.3: the salt of PBES1 is 8 bytes. The three RC2 schemes of PKCS #5 write 20.
* `C138_with_key_size_violated` — A key size changed with `WithKeySize` is not written into the file: what such a cipher encrypts, the library cannot decrypt.
* `C138_wrong_password_undetected_violated` — A wrong password is not detected: a file whose body is one or more whole blocks (or any body, with RC4) opens under every password that has the right form.
* `C139_ccm_large_panics_violated` — Data of 2^24 bytes and more stop the program with the CCM ciphers.
* `C139_nil_cipher_panics_violated` — `Opts` without a cipher stops the program.
* `C139_rc2_key_length_panics_violated` — A file that names RC2 and asks for a key of more than 128 bytes stops the program, whatever the password.
* `C139_rc5_standard_refused_violated` — The parameters of RFC 8018, B.2.4, for RC5 (version, rounds, block size in bits, IV) are refused under every key.
* `C139_seed_modes_swapped_violated` — The identifiers that KISA gives to SEED in CFB (5) and OFB (6) mode are taken for the other mode.
* `C139_unknown_name_violated` — A misspelt cipher name silently gives AES-256-CBC, a misspelt hash name SHA-1.
* `C139_wrong_password_undetected_violated` — In all modes but GCM and CCM a wrong password is not noticed: a body of whole blocks is decrypted under every password.
* `C140_cut_violated` — So XORKeyStream is not a stream: with key and iv all zero, two bytes encrypted in two calls come out otherwise than in one, and the two-call ciphertext does not decrypt in one call.
* `C140_eea3_in_place_violated` — In place (`in` and `out` the same slice) `EeaEncrypt` destroys the message: whatever the message, key and count, every bit of the words it covers becomes 0.
* `C140_iv_panics_violated` — `NewCipher` and `New256Cipher` report a wrong key length as an error but panic on a wrong iv length.
* `C140_macbits_panics_violated` — `New256CipherWithMacbits` panics on every `macbits` of -32 or less, with a good key and iv.
* `C141_forgery_violated` — `EiaGenerateMac` of a message and of the same message with its first word changed from 0 to ffffffff, for every key, iv parameters and length: the two tags are equal or complementary.
* `C141_reset_violated` — After `Reset` the object no longer computes the MAC of its key: the registers are zero and nothing restores them. Fresh object, key and iv zero, empty message: the tag before and after `Reset`.
* `C141_standard_violated` — The code's tag is not 128-EIA3: key and iv zero, one zero bit. The standard's tag is `c8a9595e` (its first test set).
* `C141_sum_again_violated` — `Sum` changes the object: asked again, it gives another tag.
* `C142_reset_violated` — After `Reset` the object no longer computes the MAC of its key.
* `C142_sum_again_violated` — `Sum` changes the object: asked again with no data, it gives the tag before the last word was added, not the tag.
* `C143_last_violated` — the signature `Sign` returns there does not depend on the private seeds, which it has just overwritten with zeros: two private keys that agree on the last `indexBytes` bytes of the public root give the same signature on every message, and it carries `ff..ff` as its index.
* `C143_wrap_violated` — the five index bytes cannot hold `2^40`, so `Sign` never refuses, and the call that uses the last index sets the stored index back to 0.
* `C145_buffer_violated` — a caller who passes the message itself, when it is shorter than a signature without its message, gets a panic and no verdict.
* `C145_message_ignored_violated` — the verdict does not depend on the message the caller passes. For any two buffers as long as the signature the answer is the same: what is checked is the message inside the signature.
* `C145_mt_message_violated` — `Verify` accepts the signature of `m`, and hands back zeros in place of `m` whenever `m` is not longer than the unused part of the signature, `(d-1)·h·n - paddingLen - 3n` bytes.
* `C146_digest_violated` — they use SHA-256 with `n = 64`, and the second half of the root in every public key they generate is zero.
* `C149_seal_key_capacity_violated` — C149 violated: a key slice with spare capacity. `buf` holds a 16-byte key, a nonce and one byte of plaintext behind each other; `Seal(nil, buf[16:32], buf[32:33], nil)` with the key `buf[:16]` overwrites the plaintext with 16 and returns the ciphertext of that instead.
* `C150_empty_read_hangs_violated` — C150 violated: a read with an empty buffer, after a read that left plaintext waiting, never ends, for any number of turns. A message of two bytes, read one byte first.
* `C150_short_tag_violated` — C150 violated: a stream of 15 bytes is accepted: the buffer the tag is compared with starts out as zeros, so a tag that ends in a zero byte may be cut by that byte.
* `C151_hash_chunks_violated` — C151 violated: the hash object on a message cut as 1 + 15 bytes: a block completed from the buffer does not clear the mark of the first block.
* `C151_mac_chunks_violated` — C151 violated: the same for a longer message, where the second block is absorbed as if it were a first one.
* `C151_mac_reset_key_violated` — and that is not the MAC: a key and a message for which it differs.
* `C151_mac_reset_violated` — C151 violated: `Reset` of a MAC object drops the key: what it computes afterwards is the unkeyed hash, for every key and message.
* `C151_sum_twice_violated` — C151 violated: `Sum` changes the object: a second `Sum` gives another value.
* `C152_absorb_after_squeeze_violated` — C152 violated: the same for `Absorb` after `Squeeze`, without a key: the second of two hashes drawn from one object.
* `C152_ratchet_violated` — C152 violated: the output after `Ratchet` is not that of the mode: `Up` does not record the phase, so that the absorb in `Ratchet` applies the permutation once more.
* `C154_gost_central_bank_violated` — C154, violated by SboxCentralBankTestParamSet: its first row has 2 twice and no 12. It is the last row of the RFC 4357 test table, whose rows are here in reverse order, with the 12 at its end mistyped; so that the cipher with this table is not the one the table is named for.
* `C154_gost_long_slices_violated` — C154, violated for longer slices: the bytes after the block are overwritten with zeros.
* `C155_magma_concurrent_violated` — C155, violated for two calls of Encrypt at once on the same cipher: there is a schedule in which, for every key and all blocks, the first call returns the encryption of the block of the second, and the second call an encryption of that ciphertext.
* `C156_shacal2_key_tail_violated` — C156, violated: one, two or three bytes after the last whole word of a key have no effect.
* `C156_shacal2_long_key_violated` — C156, violated: the bytes of a key after the 64th have no effect, though keys of up to 256 bytes are accepted.
* `C158_twine_long_src_violated` — C158, violated for every `src` longer than a block: Encrypt and Decrypt panic, where a block cipher processes the first block.
* `C158_twine_short_src_violated` — C158, violated for every `src` shorter than a block: Encrypt does not panic but encrypts the bytes followed by zeros, so that distinct inputs have the same ciphertext.
* `C160_lion_long_dst_violated` — C160, fails: with a destination that is longer than the block (as cipher.Block allows) the block that comes out depends on what the destination held behind it, the bytes behind it are changed, and decryption of the block does not give the plaintext back.
* `C160_lion_long_key_violated` — C160, fails: the same for long keys, of which parts are not used.
* `C160_lion_short_key_violated` — C160, fails: keys are cut in half and filled up with zeros or cut to the size of the hash, without a check of their length. The key of one byte `a` is the same as `[0, a]`.
* `C161_enigma_xor_violated` — C161, fails. `XORKeyStream` does not XOR: there is no key stream at all for the package's own test key, since the bytes 0 and 1 do not go to bytes that differ in the last bit only. Code that treats the cipher as a key stream generator, by encrypting zeros and XORing later, gets something else.
* `C162_two_des_key_tail_violated` — C162, fails: that the arguments are left alone. If the key is a slice of a longer array, the constructor overwrites the 8 bytes behind it with the beginning of the key.
* `C163_bits_violated` — C163, fails: "the number of bits in the resulting hash values will be the same as the number of bits in polynomial". The hash has one bit less, so that Poly64 gives 63 bits, not 64.
* `C164_empty_violated` — C164, fails: "when there is no more data, returns io.EOF": after the last chunk, or for an empty stream, Next may give an empty chunk without an error first (hash/rabin/chunker.go:126-130).
* `C164_lost_violated` — C164, fails: a reader that returns the last bytes together with io.EOF, as io.Reader allows, loses data: of three bytes, to be cut into three chunks, the last two are never given out (hash/rabin/chunker.go:113-115, 257-263).
* `C165_forged_violated` — C165, fails: "decryption" with a public key accepts what no private key has made: the padding is not checked. For every public key the number 1 decrypts to `00 … 00 01` (pubkey/rsa/encryption.go:155-167).
* `C165_long_violated` — C165, fails for longer messages: the output buffer is made with `K - 11` zero bytes in it, so that what PrivateKeyBytes gives for a message of more than `K - 11` bytes starts with them and PublicKeyBytes never decrypts it (pubkey/rsa/encryption.go:34-39, 56-61).
* `C165_panic_violated` — C165, fails: for every key there is an input of the right length for which PublicKeyBytes panics: a block without a zero (pubkey/rsa/encryption.go:158-167).
* `C166_large_violated` — C166, fails: a message that is not below the modulus comes back reduced, without an error.
* `C166_zeros_violated` — C166, fails: leading zeros are lost, for every key.
* `C167_long_adata_violated` — C167. The lengths are computed in sixteen bits: additional data of 65536 octets can make `GetOidFromAdata` (and with it `SignBytes` and `VerifyBytes`) fail on a slice out of range.
* `C167_long_r_violated` — C167. On a number `r` of more than `l` octets `VerifyWithRS` gives no verdict.
* `C167_negative_r_violated` — C167. `VerifyWithRS` ignores the sign of `r`: with `(r, s)` it accepts `(−r, s)`.
* `C167_short_hash_violated` — C167. With a hash function of fewer than `l` octets (the code provides for it) `SignToRS` returns a signature on which `VerifyWithRS` fails, and `SignBytes` fails.
* `C167_zero_nonce_violated` — C167. A reader that delivers zeros makes `SignBytes` use the nonce 0, which the standard excludes, and the signature then gives the private key away: it solves a linear equation in which everything else is public.
* `C167_zero_violated` — C167. A signature with `S1 = 0`, valid in the standard, is returned by `SignBytes` and rejected by `VerifyBytes`.
* `C168_odd_argument_violated` — C168. `Odd` changes its argument, when that is even.
* `C168_rotate_violated` — C168. A rotation by more than the word size gives 0, whatever the word.
* `C168_round_violated` — C168. `Round` of a number that is not negative is a nearest integer only if the number is a half; of an integer it is the next integer.
* `C168_sqrt_violated` — C168. `Sqrt` does not deliver the precision it is asked for, nor any other: for `p = 64` the result for `2^20` is more than eight times `1024`.
* `C170_short_read_violated` — C170. A reader that stores fewer bytes than asked for and reports no error, as `io.Reader` allows, makes a key that ends in zeros; `GenerateKey` does not notice.
* `C170_stream_violated` — C170. Two reads of one `Prng`, or of two with the same seed, give the same bytes: the reader is not a stream, and keys drawn from it one after the other do not differ.
* `C171_long_source_violated` — C171. Given a source longer than a block (a multiple of 8 bytes), `Encrypt` writes past the block: the rest of the plaintext, as it is, goes into the destination. `cipher.Block` asks for the first block only.
* `C171_short_destination_violated` — C171. Given a destination that does not hold a block, `Encrypt` does not fail: it stores the part of the block that fits.
* `C172_key192_violated` — C172, violated: a key of 192 bits is not expanded as in the standard. The last word is `θ2 ⊕ θ3 ⊕ θ4` and should be `θ4 ⊕ θ5 ⊕ θ6`, so for every key the expansion is wrong unless `θ2 ⊕ θ3 = θ5 ⊕ θ6`.
* `C172_rotation_violated` — C172, violated: with the key and the block of table A.1 of the standard `Encrypt` does not give the block the standard gives, which is also the one this repository's own belt-hash computes with.
* `C173_long_slices_violated` — C173, violated for longer slices: the bytes after the block are overwritten with zeros.
* `C174_bad_rounds_violated` — With any other number of rounds every key of 8 or 16 bytes is accepted, and `Encrypt` writes the plaintext: the error found when the key is set is dropped, and the key schedule stays all zero, with zero rounds.
* `C176_new_panics_violated` — There is a key of 16 bytes for which `NewCipher` panics: the seventh factor is 1.
* `C177_block_interface_violated` — So the package does not implement cipher.Block.
* `C177_long_source_violated` — `Encrypt` and `Decrypt` panic whenever `src` is longer than a block, whatever the key and the destination.
