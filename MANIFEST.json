{
 "claims": [
  {
   "property": "C01",
   "status": "proved",
   "theorems": [
    "Verif.Padding.C01_pkcs7_roundtrip",
    "Verif.Padding.C01_pkcs5_roundtrip",
    "Verif.Padding.C01_pkcs7_roundtrip_iff",
    "Verif.Padding.C01_pkcs7_bs256_violated"
   ],
   "note": "Full for block sizes 1..255 as claimed; exact iff for all block sizes, so >= 256 fails (C01_pkcs7_bs256_violated)."
  },
  {
   "property": "C02",
   "status": "partial",
   "theorems": [
    "Verif.Padding.C02_pkcs7_unpad_iff",
    "Verif.Padding.C02_pkcs5_unpad_iff",
    "Verif.Padding.C02_trailing_zero_accepted_violated"
   ],
   "note": "Never panics; exact characterisation. The strict claim (k>=1) is false of the code: a final 0x00 byte is accepted, witness C02_trailing_zero_accepted_violated."
  },
  {
   "property": "C03",
   "status": "partial",
   "theorems": [
    "Verif.Padding.C03_x923_roundtrip",
    "Verif.Padding.C03_x923_unpad_iff"
   ],
   "note": "Round trip and exact acceptance set; code additionally accepts strings ending in 0x00."
  },
  {
   "property": "C04",
   "status": "proved",
   "theorems": [
    "Verif.Padding.C04_iso10126_roundtrip",
    "Verif.Padding.C04_iso10126_unpad_iff"
   ],
   "note": "For every outcome of the random source."
  },
  {
   "property": "C05",
   "status": "proved",
   "theorems": [
    "Verif.Padding.C05_iso7816_unpad_iff",
    "Verif.Padding.C05_iso7816_roundtrip",
    "Verif.Padding.C05_iso7816_injective"
   ],
   "note": "One model for the three identical implementations ISO7816_4, ISO97971, PBOC2."
  },
  {
   "property": "C06",
   "status": "proved",
   "theorems": [
    "Verif.Padding.C06_zero_roundtrip_iff"
   ],
   "note": ""
  },
  {
   "property": "C07",
   "status": "proved",
   "theorems": [
    "Verif.Padding.C07_tbc_unpad_iff",
    "Verif.Padding.C07_tbc_roundtrip"
   ],
   "note": ""
  },
  {
   "property": "C08",
   "status": "partial",
   "theorems": [
    "Verif.Padding.C08_pkcs1_roundtrip_partial",
    "Verif.Padding.C08_pkcs1_length_violated",
    "Verif.Padding.C08_pkcs1_long_violated"
   ],
   "note": "Round trip only for texts shorter than 256 bytes; length is blockSize+1 and long texts never round-trip (both proved as violations)."
  },
  {
   "property": "C09",
   "status": "proved",
   "theorems": [
    "Verif.Padding.C09_keeps_text_and_aligns",
    "Verif.Padding.C09_pkcs5_aligns",
    "Verif.Padding.C09_nonpositive_block_size"
   ],
   "note": ""
  },
  {
   "property": "C10",
   "status": "partial",
   "theorems": [
    "Verif.Padding.C10_only_spare_capacity",
    "Verif.Padding.C10_no_spare_capacity_no_write",
    "Verif.Padding.C10_spare_capacity_clobbered_violated"
   ],
   "note": "Only the spare capacity of the caller's slice can be written; the unconditional claim is false (witness)."
  },
  {
   "property": "C11",
   "status": "proved",
   "theorems": [
    "Verif.Mode.C11_ecb_encrypt_spec",
    "Verif.Mode.C11_ecb_roundtrip",
    "Verif.Mode.C11_ecb_panics"
   ],
   "note": "For every block cipher, every history of calls, in place or disjoint buffers."
  },
  {
   "property": "C12",
   "status": "partial",
   "theorems": [
    "Verif.Mode.C12_pcbc_encrypt_spec_partial",
    "Verif.Mode.C12_pcbc_roundtrip_partial",
    "Verif.Mode.C12_pcbc_in_place_is_ecb",
    "Verif.Mode.C12_pcbc_in_place_decrypt_is_ecb",
    "Verif.Mode.C12_pcbc_in_place_violated",
    "Verif.Mode.C12_pcbc_setIV"
   ],
   "note": "Proved for non-overlapping buffers (spec, round trip over call histories, SetIV). In place (dst=src) the code computes ECB after the first block: C12_pcbc_in_place_is_ecb, C12_pcbc_in_place_violated."
  },
  {
   "property": "C13",
   "status": "proved",
   "theorems": [
    "Verif.Mode.C13_bc_encrypt_spec",
    "Verif.Mode.C13_bc_roundtrip",
    "Verif.Mode.C13_bc_panics_iff",
    "Verif.Mode.C13_bc_setIV"
   ],
   "note": "In place or disjoint; exact panic condition; SetIV."
  },
  {
   "property": "C14",
   "status": "partial",
   "theorems": [
    "Verif.Mode.C14_ige_encrypt_spec",
    "Verif.Mode.C14_ige_roundtrip",
    "Verif.Mode.C14_ige_setIV_swaps",
    "Verif.Mode.C14_ige_setIV_violated"
   ],
   "note": "Spec and round trip proved for objects built by the constructor; SetIV exchanges the two halves (C14_ige_setIV_violated, exact behaviour C14_ige_setIV_swaps)."
  },
  {
   "property": "C15",
   "status": "proved",
   "theorems": [
    "Verif.Mode.C15_g3413cbc_encrypt_spec",
    "Verif.Mode.C15_g3413cbc_roundtrip",
    "Verif.Mode.C15_g3413cbc_decrypt_total"
   ],
   "note": "Encrypt spec; one decrypt call (in place or not) inverts every encrypt history. Decrypting in several calls fails, see C17."
  },
  {
   "property": "C16",
   "status": "proved",
   "theorems": [
    "Verif.Mode.C16_ofbnlf_encrypt_spec",
    "Verif.Mode.C16_ofbnlf_roundtrip",
    "Verif.Mode.C16_ofbnlf_key_refused_panics"
   ],
   "note": "Under the hypothesis that a block is an acceptable key (KeyOK); a refused key panics (proved)."
  },
  {
   "property": "C17",
   "status": "partial",
   "theorems": [
    "Verif.Mode.C17_ecb_pieces",
    "Verif.Mode.C17_ecb_dec_pieces",
    "Verif.Mode.C17_pcbc_pieces_partial",
    "Verif.Mode.C17_bc_pieces",
    "Verif.Mode.C17_ige_pieces",
    "Verif.Mode.C17_g3413cbc_enc_pieces",
    "Verif.Mode.C17_ofbnlf_pieces",
    "Verif.Mode.C17_g3413cbc_dec_pieces_violated"
   ],
   "note": "Proved for ECB, BC, IGE, OFBNLF both directions, GOST-CBC encryption, PCBC with non-overlapping buffers. False for the GOST-CBC decrypter (C17_g3413cbc_dec_pieces_violated)."
  },
  {
   "property": "C18",
   "status": "proved",
   "theorems": [
    "Verif.Mode.C18_cfb_encrypt_spec",
    "Verif.Mode.C18_cfb_roundtrip",
    "Verif.Mode.C18_cfb_panics_iff"
   ],
   "note": "Every call history, any split, in place or disjoint; exact panic condition."
  },
  {
   "property": "C19",
   "status": "proved",
   "theorems": [
    "Verif.Mode.C19_cfb1_encrypt_spec",
    "Verif.Mode.C19_cfb1_roundtrip",
    "Verif.Mode.C19_cfb1_panics_iff"
   ],
   "note": "Bit-level SP 800-38A 1-bit CFB; every call history."
  },
  {
   "property": "C20",
   "status": "proved",
   "theorems": [
    "Verif.Mode.C20_cfb8_encrypt_spec",
    "Verif.Mode.C20_cfb8_roundtrip",
    "Verif.Mode.C20_cfb8_panics_iff"
   ],
   "note": "Every call history; segments of one byte."
  },
  {
   "property": "C21",
   "status": "partial",
   "theorems": [
    "Verif.Mode.C21_cfbSeg_encrypt_spec_partial",
    "Verif.Mode.C21_cfbSeg_full_block_is_repeating_pad",
    "Verif.Mode.C21_cfbSeg_roundtrip",
    "Verif.Mode.C21_cfbSeg_panics_iff",
    "Verif.Mode.C21_cfbSeg_long_segment_panics",
    "Verif.Mode.C21_cfbSeg_violated"
   ],
   "note": "Round trip proved. The SP 800-38A register shift is what the code does only for one segment (C21_cfbSeg_encrypt_spec_partial); beyond it the code differs: C21_cfbSeg_violated, with the exact behaviour for full-block segments in C21_cfbSeg_full_block_is_repeating_pad."
  },
  {
   "property": "C22",
   "status": "proved",
   "theorems": [
    "Verif.Mode.C22_ofb_spec",
    "Verif.Mode.C22_ofb_roundtrip",
    "Verif.Mode.C22_ofb_panics_iff",
    "Verif.Mode.C22_ofb_large_block_hangs"
   ],
   "note": "Block size below 512; at 512 and above XORKeyStream never returns (C22_ofb_large_block_hangs)."
  },
  {
   "property": "C23",
   "status": "proved",
   "theorems": [
    "Verif.Mode.C23_ofb8_spec",
    "Verif.Mode.C23_ofb8_roundtrip",
    "Verif.Mode.C23_ofb8_panics_iff"
   ],
   "note": ""
  },
  {
   "property": "C24",
   "status": "proved",
   "theorems": [
    "Verif.Mode.C24_nofb_spec",
    "Verif.Mode.C24_ncfb_encrypt_spec",
    "Verif.Mode.C24_nofb_roundtrip",
    "Verif.Mode.C24_ncfb_roundtrip",
    "Verif.Mode.C24_panics_iff"
   ],
   "note": "Single-call spec and round trip. Splitting is covered (and violated) under C29."
  },
  {
   "property": "C25",
   "status": "proved",
   "theorems": [
    "Verif.Mode.C25_ocfb_new_encrypter_iff",
    "Verif.Mode.C25_ocfb_encrypt_spec",
    "Verif.Mode.C25_ocfb_encrypt_resync_spec",
    "Verif.Mode.C25_ocfb_new_decrypter_iff",
    "Verif.Mode.C25_ocfb_roundtrip",
    "Verif.Mode.C25_ocfb_new_decrypter_overwrites_prefix"
   ],
   "note": "Prefix check exact, spec with and without resync, round trip; the decrypter constructor overwrites the caller's prefix (C25_ocfb_new_decrypter_overwrites_prefix)."
  },
  {
   "property": "C26",
   "status": "partial",
   "theorems": [
    "Verif.Mode.C26_gcfb_encrypt_exact",
    "Verif.Mode.C26_gcfb_encrypt_spec_partial",
    "Verif.Mode.C26_gcfb_panics_iff",
    "Verif.Mode.C26_gcfb_roundtrip",
    "Verif.Mode.C26_gcfb_violated"
   ],
   "note": "Exact behaviour for every length, round trip over all histories, exact panic set. RFC 4357 ciphertext only up to 1024 bytes; beyond, the code meshes with encryption of the constant and the section's starting IV (C26_gcfb_violated)."
  },
  {
   "property": "C27",
   "status": "partial",
   "theorems": [
    "Verif.Mode.C27_gofb_spec_partial",
    "Verif.Mode.C27_gofb_roundtrip",
    "Verif.Mode.C27_gofb_panics_iff",
    "Verif.Mode.C27_gofb_violated"
   ],
   "note": "GOST 28147 counter stream for one call unless N4 hits 0xFEFEFEFC (C27_gofb_violated); round trip when decrypting the same pieces; exact panic set. 8-byte block for the spec."
  },
  {
   "property": "C28",
   "status": "partial",
   "theorems": [
    "Verif.Mode.C28_g3413cfb_encrypt_spec",
    "Verif.Mode.C28_g3413cfb_roundtrip_partial",
    "Verif.Mode.C28_g3413cfb_histories_partial",
    "Verif.Mode.C28_g3413cfb_zero_segment_hangs",
    "Verif.Mode.C28_g3413cfb_in_place_violated",
    "Verif.Mode.C28_g3413ctr_spec",
    "Verif.Mode.C28_g3413ctr_roundtrip",
    "Verif.Mode.C28_g3413ctr_panics_iff",
    "Verif.Mode.C28_g3413ctr_bad_bits",
    "Verif.Mode.C28_g3413ofb_spec",
    "Verif.Mode.C28_g3413ofb_roundtrip",
    "Verif.Mode.C28_g3413ofb_panics_iff"
   ],
   "note": "CTR and OFB proved in full for all histories. CFB: encryption spec in full; decryption only into a separate buffer (in place violated), segment-aligned histories; bit sizes below 8 hang."
  },
  {
   "property": "C29",
   "status": "partial",
   "theorems": [
    "Verif.Mode.C29_cfb_pieces",
    "Verif.Mode.C29_cfb1_pieces",
    "Verif.Mode.C29_cfb8_pieces",
    "Verif.Mode.C29_cfbSeg_pieces_partial",
    "Verif.Mode.C29_cfbSeg_violated",
    "Verif.Mode.C29_ofb_pieces",
    "Verif.Mode.C29_ofb8_pieces",
    "Verif.Mode.C29_nofb_pieces_partial",
    "Verif.Mode.C29_nofb_violated",
    "Verif.Mode.C29_ncfb_pieces_partial",
    "Verif.Mode.C29_ncfb_violated",
    "Verif.Mode.C29_ocfb_pieces",
    "Verif.Mode.C29_gcfb_pieces",
    "Verif.Mode.C29_gofb_violated",
    "Verif.Mode.C29_g3413cfb_pieces_partial",
    "Verif.Mode.C29_g3413cfb_violated",
    "Verif.Mode.C29_g3413ctr_pieces",
    "Verif.Mode.C29_g3413ofb_pieces"
   ],
   "note": "Proved for CFB, CFB1, CFB8, OFB, OFB8, OCFB, GCFB, G3413CTR, G3413OFB for every history. CFB16/32/64, NOFB, NCFB, GOFB, G3413CFB violate it (C29_*_violated); aligned forms proved as _partial where they hold."
  },
  {
   "property": "C30",
   "status": "proved",
   "theorems": [
    "Verif.Mode.C30_wrap_spec",
    "Verif.Mode.C30_wrap_panics_iff",
    "Verif.Mode.C30_unwrap_exact",
    "Verif.Mode.C30_roundtrip",
    "Verif.Mode.C30_wrap_then_unwrap",
    "Verif.Mode.C30_unwrap_short",
    "Verif.Mode.C30_wrap_8byte_cipher_cleartext_violated"
   ],
   "note": "16-byte block ciphers; any aliasing of the buffers; exact result for any ciphertext, round trip, exact panic set. Finding: 8-byte ciphers are accepted and the payload stays in clear (C30_wrap_8byte_cipher_cleartext_violated)."
  },
  {
   "property": "C31",
   "status": "partial",
   "theorems": [
    "Verif.Mode.C31_wrapPad_spec_partial",
    "Verif.Mode.C31_wrapPad_unaligned_violated",
    "Verif.Mode.C31_roundtrip_partial",
    "Verif.Mode.C31_roundtrip8_partial",
    "Verif.Mode.C31_unwrapPad_padded_zeroed_violated",
    "Verif.Mode.C31_unwrapPad_bad_padding_accepted_violated"
   ],
   "note": "RFC 5649 value and round trip only for plaintexts of 8k bytes; other lengths panic on wrapping; unwrapping a correct padded value delivers zeros and accepts non-zero padding (inverted check), proved for every key."
  },
  {
   "property": "C32",
   "status": "partial",
   "theorems": [
    "Verif.Aead.C32_new_ok_iff",
    "Verif.Aead.C32_seal_spec",
    "Verif.Aead.C32_seal_inplace_exact",
    "Verif.Aead.C32_seal_panics_iff",
    "Verif.Aead.C32_open_accepts",
    "Verif.Aead.C32_open_rejects",
    "Verif.Aead.C32_roundtrip",
    "Verif.Aead.C32_seal_inplace_violated"
   ],
   "note": "Seal computes RFC 3610 CCM and Open accepts exactly those ciphertexts (and zeroes its output otherwise), for dst apart from the inputs; opening in place is covered too. Sealing in place (exact overlap) authenticates the ciphertext instead of the plaintext: proved exactly, with a witness that Open rejects the result."
  },
  {
   "property": "C33",
   "status": "partial",
   "theorems": [
    "Verif.Aead.C33_new_ok_iff",
    "Verif.Aead.C33_seal_spec",
    "Verif.Aead.C33_seal_panics_iff",
    "Verif.Aead.C33_open_exact",
    "Verif.Aead.C33_open_accepts_partial",
    "Verif.Aead.C33_open_rejects",
    "Verif.Aead.C33_roundtrip_partial",
    "Verif.Aead.C33_tag_size_zero_accepts_all",
    "Verif.Aead.C33_blocksize_violated",
    "Verif.Aead.C33_open_append_violated"
   ],
   "note": "Seal proved against the EAX definition for every input, apart or in place, with an exact characterisation of panics. Open proved for empty dst and its exact (wrong) result for non-empty dst; C33_open_append_violated exhibits the lost bytes, C33_blocksize_violated that the constructor accepts ciphers with which Seal always panics."
  },
  {
   "property": "C34",
   "status": "partial",
   "theorems": [
    "Verif.Aead.C34_new_ok_iff",
    "Verif.Aead.C34_mul_is_field_mul",
    "Verif.Aead.C34_seal_spec",
    "Verif.Aead.C34_seal_panics_iff",
    "Verif.Aead.C34_open_accepts",
    "Verif.Aead.C34_open_rejects",
    "Verif.Aead.C34_open_panics_iff",
    "Verif.Aead.C34_roundtrip",
    "Verif.Aead.C34_open_short_violated"
   ],
   "note": "Seal, Open and round trip proved against RFC 9058 for all inputs (apart or in place), multiplication proved to be polynomial multiplication over GF(2). The claim that Open returns an error fails for ciphertexts shorter than the tag: it panics (C34_open_panics_iff, C34_open_short_violated)."
  },
  {
   "property": "C35",
   "status": "partial",
   "theorems": [
    "Verif.Aead.C35_new_ok_iff",
    "Verif.Aead.C35_seal_spec_partial",
    "Verif.Aead.C35_seal_exact_partial",
    "Verif.Aead.C35_seal_panics_iff",
    "Verif.Aead.C35_open_accepts_partial",
    "Verif.Aead.C35_open_short_rejects",
    "Verif.Aead.C35_open_rejects_partial",
    "Verif.Aead.C35_open_panics_iff",
    "Verif.Aead.C35_roundtrip_partial",
    "Verif.Aead.C35_open_inplace_violated",
    "Verif.Aead.C35_open_dst_violated",
    "Verif.Aead.C35_seal_inplace_violated",
    "Verif.Aead.C35_seal_clobbers_violated"
   ],
   "note": "Seal/Open modelled with the object caches (mask table, Ktop), on arbitrary reachable objects, heap and append growth. Proved: constructor domain, RFC 7253 output, which calls panic, acceptance, rejection with zeroed output, round trip. Partial because the code violates the full claim: in-place Open accepts every forgery, non-empty dst is never accepted by Open, in-place Seal produces a wrong tag, Seal writes behind the plaintext (all proved as _violated)."
  },
  {
   "property": "C36",
   "status": "partial",
   "theorems": [
    "Verif.Aead.C36_new_ok_iff",
    "Verif.Aead.C36_seal_spec_partial",
    "Verif.Aead.C36_seal_panics_iff",
    "Verif.Aead.C36_open_accepts",
    "Verif.Aead.C36_open_short_rejects",
    "Verif.Aead.C36_open_rejects_partial",
    "Verif.Aead.C36_open_panics_iff",
    "Verif.Aead.C36_roundtrip_partial",
    "Verif.Aead.C36_open_max_violated",
    "Verif.Aead.C36_nonce_size_violated",
    "Verif.Aead.C36_seal_inplace_violated",
    "Verif.Aead.C36_open_release_violated"
   ],
   "note": "Seal, Open and round trip proved against RFC 7253 for all inputs, with exact panic conditions. Missing because the code violates it: in-place Seal of a plaintext that is not whole blocks gives a wrong tag (C36_seal_inplace_violated), a failed Open leaves deciphered blocks in dst's memory (C36_open_release_violated), nonce sizes above 15 are accepted and always panic (C36_nonce_size_violated), maximal plaintexts cannot be opened (C36_open_max_violated)."
  },
  {
   "property": "C37",
   "status": "partial",
   "theorems": [
    "Verif.Aead.C37_seal_spec_partial",
    "Verif.Aead.C37_open_accepts_partial",
    "Verif.Aead.C37_open_rejects_partial",
    "Verif.Aead.C37_errors",
    "Verif.Aead.C37_nonce_panics",
    "Verif.Aead.C37_roundtrip_partial",
    "Verif.Aead.C37_seal_inplace_violated",
    "Verif.Aead.C37_open_inplace_violated",
    "Verif.Aead.C37_release_violated"
   ],
   "note": "CMAC-SIV and PMAC-SIV over any 16-byte block ciphers, after any history of calls: Seal output equals RFC 5297 SIV, Open accepts exactly the SIV images and inverts Seal. Partial because exact aliasing of dst and input (allowed by the documentation) panics or corrupts (C37_seal_inplace_violated, C37_open_inplace_violated) and a failed Open leaves the decrypted bytes in dst's spare capacity (C37_release_violated); block sizes other than 16 are not covered."
  },
  {
   "property": "C38",
   "status": "partial",
   "theorems": [
    "Verif.Hctr.C38_new_ok_iff",
    "Verif.Hctr.C38_roundtrip_partial",
    "Verif.Hctr.C38_permutation_partial",
    "Verif.Hctr.C38_panics_iff",
    "Verif.Hctr.C38_short_dst",
    "Verif.Hctr.C38_small_block_violated",
    "Verif.Hctr.C38_long_dst_violated",
    "Verif.Hctr.C38_empty_batch_violated"
   ],
   "note": "Round trip both ways, frame and exact panic conditions proved for 16-byte block ciphers and output buffers of the message's length. False in general: longer output buffers (C38_long_dst_violated), block ciphers of 8 bytes, which NewHCTR accepts (C38_small_block_violated), batch size 0 (C38_empty_batch_violated)."
  },
  {
   "property": "C39",
   "status": "partial",
   "theorems": [
    "Verif.Facade.C39_roundtrip_partial",
    "Verif.Facade.C39_encrypt_ok_iff",
    "Verif.Facade.C39_padding_with_tag_violated",
    "Verif.Facade.C39_ocfb_padding_violated",
    "Verif.Facade.C39_zero_padding_violated",
    "Verif.Facade.C39_iv_in_spare_capacity_violated"
   ],
   "note": "Proved for every block cipher, every data, key and iv, for all modes and paddings of encrypt_mode.go/encrypt_padding.go that the theorem's Opt.Valid admits. Not true in general: a tag mode combined with padding, OCFB combined with padding, zero padding, and an iv lying in the spare capacity of data break it (four witnesses). Stream ciphers and AEAD-only entries of encrypt_multiple.go are not covered."
  },
  {
   "property": "C40",
   "status": "partial",
   "theorems": [
    "Verif.Facade.World.C40_encrypt_returns",
    "Verif.Facade.World.C40_errors_accumulate",
    "Verif.Facade.World.C40_handler_panic_escapes_violated",
    "Verif.Facade.World.C40_handler_panic_loses_error_violated"
   ],
   "note": "Encrypt/Decrypt return normally and every error is kept unless a registered OnError handler panics; both exceptions have witnesses, and so has the loss of an error between values derived from one base (C41_sibling_errors_violated)."
  },
  {
   "property": "C41",
   "status": "partial",
   "theorems": [
    "Verif.Facade.World.C41_chains_independent_partial",
    "Verif.Facade.World.C41_chains_independent_from_start_partial",
    "Verif.Facade.World.C41_interference_range",
    "Verif.Facade.World.C41_package_level_shared_violated",
    "Verif.Facade.World.C41_set_config_nil_violated",
    "Verif.Facade.World.C41_sibling_errors_violated",
    "Verif.Facade.World.C41_sibling_handlers_violated"
   ],
   "note": "Chains that start with their own New() and use no shared object are independent under every interleaving. For chains started by package-level functions, by SetConfig/WithConfig with a shared object or from a common base value the property is false: witnesses."
  },
  {
   "property": "C42",
   "status": "partial",
   "theorems": [
    "Verif.Facade.C42_encrypt_frame_partial",
    "Verif.Facade.C42_encrypt_pure",
    "Verif.Facade.C42_decrypt_pure_partial",
    "Verif.Facade.C42_encrypt_again",
    "Verif.Facade.C42_ocfb_decrypt_violated",
    "Verif.Facade.C42_padding_overwrites_spare_capacity_violated"
   ],
   "note": "Encrypt changes nothing below the allocation point except the spare capacity of data; Decrypt changes nothing except in OCFB. Witnesses for both exceptions."
  },
  {
   "property": "C43",
   "status": "proved",
   "theorems": [
    "Verif.Facade.Cfg.C43_behaves_like_maps",
    "Verif.Facade.Cfg.C43_behaves_like_maps_from_start",
    "Verif.Facade.Cfg.C43_typed_getter",
    "Verif.Facade.Cfg.C43_with_data_aliases_violated",
    "Verif.Facade.Cfg.C43_nil_map_violated"
   ],
   "note": "Refinement to finite maps for every call sequence on any number of objects; typed getters. WithData (not in the property) makes the object share the caller's map: witnesses."
  },
  {
   "property": "C44",
   "status": "partial",
   "theorems": [
    "Verif.Mac.C44_new_ok_iff",
    "Verif.Mac.C44_history_partial",
    "Verif.Mac.C44_history",
    "Verif.Mac.C44_cmac_is_omac",
    "Verif.Mac.C44_verify_iff",
    "Verif.Mac.C44_256_violated"
   ],
   "note": "Proved for 64/128-bit blocks and all histories; for the larger block sizes only the low byte of the reduction constant is used (C44_history_partial, C44_256_violated)."
  },
  {
   "property": "C45",
   "status": "partial",
   "theorems": [
    "Verif.Mac.C45_new_ok_iff",
    "Verif.Mac.C45_history_partial",
    "Verif.Mac.C45_inverse",
    "Verif.Mac.C45_write_panics_iff",
    "Verif.Mac.C45_long_message_violated",
    "Verif.Mac.C45_sum_destroys_violated",
    "Verif.Mac.C45_64_violated"
   ],
   "note": "Proved for 128-bit blocks and histories where nothing follows a Sum except Reset, up to the length limit; Sum destroys the state, Write panics beyond the limit (reachable for small blocks), 64-bit blocks use the wrong constant: proved as violations."
  },
  {
   "property": "C46",
   "status": "partial",
   "theorems": [
    "Verif.Mac.C46_alg1234_partial",
    "Verif.Mac.C46_lmac_partial",
    "Verif.Mac.C46_trcbc_partial",
    "Verif.Mac.C46_cmac_partial",
    "Verif.Mac.C46_cbcr_partial",
    "Verif.Mac.C46_cbcr_collision_violated",
    "Verif.Mac.C46_cbcr_rotation_violated",
    "Verif.Mac.C46_clobbers_violated",
    "Verif.Mac.C46_trcbc_collision_violated",
    "Verif.Mac.C46_lmac_size_violated",
    "Verif.Mac.C46_cmac_empty_violated",
    "Verif.Mac.C46_cmac_64_violated",
    "Verif.Mac.C46_new_iff",
    "Verif.Mac.C46_new_two_iff",
    "Verif.Mac.C46_new_macdes_iff",
    "Verif.Mac.C46_new_lmac_iff"
   ],
   "note": "Value theorems for all eight algorithms with the exact domain on which the code agrees with the standard; violations proved: CBCR collisions for every key, TrCBC full-size collisions, LMAC size ignored, CMAC empty-message length, CMAC 64-bit constant, spare capacity of the message slice overwritten."
  },
  {
   "property": "C47",
   "status": "partial",
   "theorems": [
    "Verif.Hctr.C47_mul_is_field_mul",
    "Verif.Hctr.C47_is_hctr_partial",
    "Verif.Hctr.C47_tweak_ignored_violated",
    "Verif.Hctr.C47_other_lengths_violated"
   ],
   "note": "Holds for message lengths divisible by 8. For other lengths uhash copies the tweak from offset len(rest) instead of 16-len(rest), so some tweak bytes are ignored (C47_tweak_ignored_violated, for every such length) and the output is not HCTR (C47_other_lengths_violated)."
  },
  {
   "property": "C48",
   "status": "proved",
   "theorems": [
    "Verif.Cipher.C48_lea"
   ],
   "note": "All keys, blocks, slices."
  },
  {
   "property": "C49",
   "status": "proved",
   "theorems": [
    "Verif.Cipher.C49_speck"
   ],
   "note": "All keys, blocks, slices."
  },
  {
   "property": "C50",
   "status": "proved",
   "theorems": [
    "Verif.Cipher.C50_simon"
   ],
   "note": "All keys, blocks, slices."
  },
  {
   "property": "C51",
   "status": "proved",
   "theorems": [
    "Verif.Cipher.C51_hight"
   ],
   "note": "All keys, blocks, slices."
  },
  {
   "property": "C52",
   "status": "proved",
   "theorems": [
    "Verif.Cipher.C52_rc5"
   ],
   "note": "All keys, word sizes, rounds, blocks, slices (word size and rounds as naturals)."
  },
  {
   "property": "C53",
   "status": "proved",
   "theorems": [
    "Verif.Cipher.C53_rc6"
   ],
   "note": "All keys, blocks, slices."
  },
  {
   "property": "C54",
   "status": "proved",
   "theorems": [
    "Verif.Cipher.C54_rc2_accepted",
    "Verif.Cipher.C54_rc2_rejected"
   ],
   "note": "Exact characterisation of the accepted arguments; the panics are a finding (the signature announces an error)."
  },
  {
   "property": "C55",
   "status": "proved",
   "theorems": [
    "Verif.Cipher.C55_sm4",
    "Verif.Cipher.C55_sm4_tables"
   ],
   "note": "All keys, blocks, slices; the four 256-entry tables are checked entry by entry in the kernel."
  },
  {
   "property": "C56",
   "status": "proved",
   "theorems": [
    "Verif.Cipher.C56_seed"
   ],
   "note": "All keys, blocks, slices."
  },
  {
   "property": "C57",
   "status": "partial",
   "theorems": [
    "Verif.Cipher.C57_kseed_partial",
    "Verif.Cipher.C57_kseed_effect",
    "Verif.Cipher.C57_kseed_key",
    "Verif.Cipher.C57_kseed_violated"
   ],
   "note": "False as stated: with src of 20 or more bytes and dst longer than 16 the methods overwrite the bytes after the block with zeros (C57_kseed_violated; exact effect C57_kseed_effect). Proved for the other slices, with equality to SEED."
  },
  {
   "property": "C58",
   "status": "proved",
   "theorems": [
    "Verif.Cipher.C58_aria"
   ],
   "note": "All keys, blocks, slices; diffusion layer by linear algebra over bytes (Linear.lean)."
  },
  {
   "property": "C59",
   "status": "proved",
   "theorems": [
    "Verif.Cipher.C59_camellia"
   ],
   "note": "All keys, blocks, slices."
  },
  {
   "property": "C60",
   "status": "proved",
   "theorems": [
    "Verif.Cipher.C60_cast"
   ],
   "note": "All keys, blocks, slices."
  },
  {
   "property": "C61",
   "status": "proved",
   "theorems": [
    "Verif.Cipher.C61_cast256",
    "Verif.Cipher.C61_cast_cast256"
   ],
   "note": "All keys, blocks, slices; equality with cipher/cast proved (the S-box tables of the two packages are the same, checked when generating the model)."
  },
  {
   "property": "C62",
   "status": "proved",
   "theorems": [
    "Verif.Cipher.C62_idea",
    "Verif.Cipher.C62_idea_inverse"
   ],
   "note": "All keys, blocks, slices; multiplication modulo 65537 by its algebra, the extended Euclidean loop by an invariant."
  },
  {
   "property": "C63",
   "status": "proved",
   "theorems": [
    "Verif.Cipher.C63_clefia"
   ],
   "note": "C63_clefia for all keys, blocks, memories and slices; RFC 6114 vectors for the three key sizes as kernel-evaluated examples."
  },
  {
   "property": "C64",
   "status": "proved",
   "theorems": [
    "Verif.Cipher.C64_kasumi",
    "Verif.Cipher.C64_kasumi_tables"
   ],
   "note": "C64_kasumi for all keys, blocks, memories and slices; C64_kasumi_tables: table indices in range; the repository's vector as an example."
  },
  {
   "property": "C65",
   "status": "proved",
   "theorems": [
    "Verif.Cipher.C65_misty1"
   ],
   "note": "C65_misty1 against ImplementsU (no overlap check in the package); RFC 2994 vector as an example."
  },
  {
   "property": "C66",
   "status": "partial",
   "theorems": [
    "Verif.Cipher.C66_multi2_partial",
    "Verif.Cipher.C66_multi2_effect",
    "Verif.Cipher.C66_multi2_violated",
    "Verif.Cipher.C66_multi2_hang"
   ],
   "note": "False in full. Proved: for rounds > 0 the methods do what they should if src < 12 bytes or dst = 8 bytes (C66_multi2_partial), exactly what they write otherwise (C66_multi2_effect: zeros after the block), that this is a violation (C66_multi2_violated), and that for rounds < 0 Encrypt returns but Decrypt never does (C66_multi2_hang). Missing: rounds = 0, where Decrypt is the identity and Encrypt makes 2^32 steps."
  },
  {
   "property": "C67",
   "status": "partial",
   "theorems": [
    "Verif.Cipher.C67_noekeon_partial",
    "Verif.Cipher.C67_noekeon_effect",
    "Verif.Cipher.C67_noekeon_violated"
   ],
   "note": "False in full: with src >= 20 bytes and dst > 16 bytes the bytes after the block are zeroed (C67_noekeon_violated). C67_noekeon_partial proves the claim for all other slices, C67_noekeon_effect the exact effect for all slices."
  },
  {
   "property": "C68",
   "status": "proved",
   "theorems": [
    "Verif.Cipher.C68_threeway"
   ],
   "note": "C68_threeway; decryption is conjugated by bit reversal, the linear step is inverted via the 96 one-bit states, the round constants by evaluation."
  },
  {
   "property": "C69",
   "status": "proved",
   "theorems": [
    "Verif.Cipher.C69_present"
   ],
   "note": "C69_present; the three tables are shown to be inverse layers over all entries; both key sizes have a vector as an example."
  },
  {
   "property": "C70",
   "status": "proved",
   "theorems": [
    "Verif.Bencode.C70_bencode_unmarshal_total"
   ],
   "note": "C70_bencode_unmarshal_total. Not covered: exhaustion of the goroutine stack by millions of nested lists, struct targets, Unmarshaler implementations."
  },
  {
   "property": "C71",
   "status": "proved",
   "theorems": [
    "Verif.Bencode.C71_bencode_exact"
   ],
   "note": "C71_bencode_exact; integers of any size (int64 or *big.Int)."
  },
  {
   "property": "C72",
   "status": "proved",
   "theorems": [
    "Verif.Bencode.C72_bencode_roundtrip",
    "Verif.Bencode.C72_bencode_reencode",
    "Verif.Bencode.C72_bencode_injective"
   ],
   "note": "C72_bencode_roundtrip, C72_bencode_reencode, C72_bencode_injective. Structs, Marshaler implementations and writer errors are not modelled."
  },
  {
   "property": "C73",
   "status": "proved",
   "theorems": [
    "Verif.Bencode.C73_bencode_stream",
    "Verif.Bencode.C73_bencode_offset"
   ],
   "note": "C73_bencode_stream, C73_bencode_offset. The one-byte scanner is modelled as reading the input byte by byte."
  },
  {
   "property": "C74",
   "status": "partial",
   "theorems": [
    "Verif.Bencode.C74_bencode_map_roundtrip_partial",
    "Verif.Bencode.C74_bencode_map_wellformed_partial",
    "Verif.Bencode.C74_bencode_map_exact_violated"
   ],
   "note": "C74_bencode_map_roundtrip_partial and C74_bencode_map_wellformed_partial hold; exactness fails (C74_bencode_map_exact_violated): unsorted keys, repeated keys (last wins), a key given as one-element list or as empty dictionary are accepted."
  },
  {
   "property": "C75",
   "status": "partial",
   "theorems": [
    "Verif.Bencode.C75_bencode_slice_violated",
    "Verif.Bencode.C75_bencode_array_violated",
    "Verif.Bencode.C75_bencode_slice_via_any_partial"
   ],
   "note": "Both halves fail for every input: C75_bencode_slice_violated (every list is rejected, no input ever yields an element) and C75_bencode_array_violated; C75_bencode_slice_via_any_partial: slices survive through an any target."
  },
  {
   "property": "C76",
   "status": "proved",
   "theorems": [
    "Verif.Hash.C76_md2_every_history",
    "Verif.Hash.C76_md2_sum_data"
   ],
   "note": "Full functional refinement of the digest to RFC 1319, S-box taken from the code."
  },
  {
   "property": "C77",
   "status": "proved",
   "theorems": [
    "Verif.Hash.C77_sm3_every_history",
    "Verif.Hash.C77_sm3_sum_data",
    "Verif.Hash.C77_sm3_save_restore",
    "Verif.Hash.C77_sm3_restore_accepts"
   ],
   "note": "Full functional refinement to GB/T 32905, including the message expansion and the rotated constants table."
  },
  {
   "property": "C78",
   "status": "proved",
   "theorems": [
    "Verif.Hash.C78_has160_every_history",
    "Verif.Hash.C78_has160_sum_data"
   ],
   "note": "Full functional refinement."
  },
  {
   "property": "C79",
   "status": "proved",
   "theorems": [
    "Verif.Hash.C79_belt_every_history",
    "Verif.Hash.C79_belt_sum_data"
   ],
   "note": "Full functional refinement; the S-box is the code's table."
  },
  {
   "property": "C80",
   "status": "partial",
   "theorems": [
    "Verif.Hash.C80_bash_split_writes_violated",
    "Verif.Hash.C80_bash_long_write_violated",
    "Verif.Hash.C80_bash_every_fitting_history_partial",
    "Verif.Hash.C80_bash_sizes"
   ],
   "note": "The full claim is false of the code: Write copies up to 192 bytes into the buffer and processBlock XORs all 192 into the state, so a Write that goes past the block end changes the digest (C80_bash_split_writes_violated, C80_bash_long_write_violated). Proved for histories in which no Write passes the end of the current block."
  },
  {
   "property": "C81",
   "status": "proved",
   "theorems": [
    "Verif.Hash.C81_gost94_every_history",
    "Verif.Hash.C81_gost94_every_history_any_length"
   ],
   "note": "Refinement to RFC 5831 for every cipher; the identity cipher of the package's test gives its published answer."
  },
  {
   "property": "C82",
   "status": "partial",
   "theorems": [
    "Verif.Hash.C82_streebog_sizes",
    "Verif.Hash.C82_streebog_every_history",
    "Verif.Hash.C82_streebog_every_history_any_length",
    "Verif.Hash.C82_streebog_save_restore",
    "Verif.Hash.C82_streebog_restore_malformed_violated",
    "Verif.Hash.C82_streebog_restore_aliases_violated",
    "Verif.Hash.C82_streebog_restore_clobbers_violated"
   ],
   "note": "Digest and honest save/restore proved for every history; the violations (aliasing of the restored buffer, panic after an accepted malformed state) are proved as counterexamples."
  },
  {
   "property": "C83",
   "status": "partial",
   "theorems": [
    "Verif.Kdf.C83_kdf",
    "Verif.Kdf.C83_esptree_every_history",
    "Verif.Kdf.C83_esptree_bad_index",
    "Verif.Kdf.C83_tlstree_every_history_partial",
    "Verif.Kdf.C83_tlstree_cached_flag",
    "Verif.Kdf.C83_tlstree_first_key_zero_violated",
    "Verif.Kdf.C83_tlstree_alias_violated"
   ],
   "note": "ESP tree proved for every history; TLS tree proved for every history whose first number is zero or visible under a mask; the zero-key first answer and the aliasing are proved as counterexamples."
  },
  {
   "property": "C84",
   "status": "partial",
   "theorems": [
    "Verif.Kdf.C84_pbkdf2",
    "Verif.Kdf.C84_pbkdf2_hmac",
    "Verif.Kdf.C84_pbkdf2_prefix",
    "Verif.Kdf.C84_pbkdf2_iterations_unchecked_violated",
    "Verif.Kdf.C84_pbkdf2_negative",
    "Verif.Kdf.C84_gost_pbkdf2_partial",
    "Verif.Kdf.C84_gost_pbkdf2_block_password_violated",
    "Verif.Kdf.C84_gost_pbkdf2_salt_overwritten_violated"
   ],
   "note": "pbkdf2 proved in full (iteration counts below one are accepted silently, recorded as violation); gost_pbkdf2 proved for short passwords, violations for block-length passwords and overwritten salt by concrete heaps."
  },
  {
   "property": "C85",
   "status": "proved",
   "theorems": [
    "Verif.Kdf.C85_pkcs12_kdf",
    "Verif.Kdf.C85_pkcs12_prefix",
    "Verif.Kdf.C85_pkcs12_iterations_unchecked_violated"
   ],
   "note": "Complete for r >= 1; unchecked counts recorded as violation."
  },
  {
   "property": "C86",
   "status": "proved",
   "theorems": [
    "Verif.Kdf.C86_counter",
    "Verif.Kdf.C86_feedback",
    "Verif.Kdf.C86_pipeline",
    "Verif.Kdf.C86_counter_size",
    "Verif.Kdf.C86_counter_wraps_violated",
    "Verif.Kdf.C86_lengths_separated"
   ],
   "note": "Counter wrap proved as a violation theorem for every counter size."
  },
  {
   "property": "C87",
   "status": "partial",
   "theorems": [
    "Verif.Kdf.C87_kdftree_partial",
    "Verif.Kdf.C87_kdftree_255_violated",
    "Verif.Kdf.C87_kdftree_rejects",
    "Verif.Kdf.C87_prfplus",
    "Verif.Kdf.C87_prfplus_empty",
    "Verif.Kdf.C87_smkdf",
    "Verif.Kdf.C87_smkdf_negative"
   ],
   "note": "prf+ and SM2 KDF complete; key tree for up to 254 digests, non-termination at 255 proved."
  },
  {
   "property": "C88",
   "status": "partial",
   "theorems": [
    "Verif.Kdf.C88_s2k",
    "Verif.Kdf.C88_s2k_no_salt",
    "Verif.Kdf.C88_tune_never_returns_violated",
    "Verif.Kdf.C88_with_count"
   ],
   "note": "Key complete; KeyWithTune with count 0 proved never to return."
  },
  {
   "property": "C89",
   "status": "proved",
   "theorems": [
    "Verif.Kdf.C89_bcrypt_pbkdf",
    "Verif.Kdf.C89_bcrypt_pbkdf_errors",
    "Verif.Kdf.C89_bcrypt_pbkdf_length"
   ],
   "note": "SHA-512 and the Blowfish-based bcrypt hash are parameters."
  },
  {
   "property": "C90",
   "status": "partial",
   "theorems": [
    "Verif.Pub.EcGdsa.C90_sign_verifies",
    "Verif.Pub.EcGdsa.C90_verify_partial",
    "Verif.Pub.EcGdsa.C90_high_s_violated",
    "Verif.Pub.EcGdsa.C90_verify_panics_violated",
    "Verif.Pub.EcGdsa.C90_verifyBytes_panics_violated",
    "Verif.Pub.EcGdsa.C90_bytes_partial",
    "Verif.Pub.EcGdsa.C90_bytes_violated",
    "Verif.Pub.EcGdsa.C90_generate",
    "Verif.Pub.EcGdsa.C90_import_partial",
    "Verif.Pub.EcGdsa.C90_last_key_violated"
   ],
   "note": "Signing complete. Verification accepts (r, s+q) and panics for r a multiple of q; SignBytes panics on curves whose order is longer than the field; key q-1 is not importable: each a violation theorem."
  },
  {
   "property": "C91",
   "status": "partial",
   "theorems": [
    "Verif.Pub.EcKcdsa.C91_verify",
    "Verif.Pub.EcKcdsa.C91_sign_verifies_partial",
    "Verif.Pub.EcKcdsa.C91_zero_r_violated",
    "Verif.Pub.EcKcdsa.C91_bytes_partial",
    "Verif.Pub.EcKcdsa.C91_bytes_violated"
   ],
   "note": "Decision of VerifyWithRS complete. A signature with r = 0 is returned and rejected, and SignBytes panics when the order is longer than the field (secp160r1): violation theorems."
  },
  {
   "property": "C92",
   "status": "partial",
   "theorems": [
    "Verif.Pub.EcSchnorr.C92_verify_partial",
    "Verif.Pub.EcSchnorr.C92_sign_ends",
    "Verif.Pub.EcSchnorr.C92_sign_verifies_partial",
    "Verif.Pub.EcSchnorr.C92_retry_violated",
    "Verif.Pub.EcSchnorr.C92_verify_panics_violated",
    "Verif.Pub.EcSchnorr.C92_verifyBytes",
    "Verif.Pub.EcSchnorr.C92_signBytes_partial",
    "Verif.Pub.EcSchnorr.C92_fsdsa_verify_partial",
    "Verif.Pub.EcSchnorr.C92_fsdsa_sign_verifies_partial",
    "Verif.Pub.EcSchnorr.C92_fsdsa_retry_violated",
    "Verif.Pub.EcSchnorr.C92_fsdsa_verify_panics_violated",
    "Verif.Pub.EcSchnorr.C92_fsdsa_verifyBytes",
    "Verif.Pub.EcSchnorr.C92_generate",
    "Verif.Pub.EcSchnorr.C92_import_partial",
    "Verif.Pub.EcSchnorr.C92_last_key_violated"
   ],
   "note": "VerifyBytes complete. After a retry the hash object is not reset and the signature can fail to verify; VerifyWithRS panics on an r longer than a digest: violation theorems."
  },
  {
   "property": "C93",
   "status": "partial",
   "theorems": [
    "Verif.Pub.EcRdsa.C93_verify",
    "Verif.Pub.EcRdsa.C93_sign_verifies_partial",
    "Verif.Pub.EcRdsa.C93_retry_violated",
    "Verif.Pub.EcRdsa.C93_bytes_partial"
   ],
   "note": "Verification complete. After a retry the message has been hashed twice and the signature can fail to verify: violation theorem."
  },
  {
   "property": "C94",
   "status": "partial",
   "theorems": [
    "Verif.Pub.Bip340.C94_verify_partial",
    "Verif.Pub.Bip340.C94_verify_panics_violated",
    "Verif.Pub.Bip340.C94_xonly",
    "Verif.Pub.Bip340.C94_sign_default",
    "Verif.Pub.Bip340.C94_sign_verifies_partial",
    "Verif.Pub.Bip340.C94_signToRS_partial",
    "Verif.Pub.Bip340.C94_verifyBytes_partial",
    "Verif.Pub.Bip340.C94_signBytes_partial",
    "Verif.Pub.Bip340.C94_batch",
    "Verif.Pub.Bip340.C94_batch_empty_violated",
    "Verif.Pub.Bip340.C94_zero_s_violated"
   ],
   "note": "Violations: signatures with s = 0 are made but rejected; VerifyWithRS panics for r longer than a coordinate; BatchVerify panics with messages and no keys."
  },
  {
   "property": "C95",
   "status": "partial",
   "theorems": [
    "Verif.Pub.Gost.C95_add_partial",
    "Verif.Pub.Gost.C95_double_partial",
    "Verif.Pub.Gost.C95_scalarMult",
    "Verif.Pub.Gost.C95_marshal",
    "Verif.Pub.Gost.C95_unmarshal",
    "Verif.Pub.Gost.C95_add_opposite_violated",
    "Verif.Pub.Gost.C95_add_infinity_violated"
   ],
   "note": "Scalar multiplication complete for subgroup points (a panic for multiples of the order). Violations: Add of opposite points is not infinity; (0,0) is accepted and not neutral."
  },
  {
   "property": "C96",
   "status": "partial",
   "theorems": [
    "Verif.Pub.Gost.C96_verify_partial",
    "Verif.Pub.Gost.C96_sign_verifies_partial",
    "Verif.Pub.Gost.C96_verify_bytes_partial",
    "Verif.Pub.Gost.C96_sign_bytes_partial",
    "Verif.Pub.Gost.C96_sign_first",
    "Verif.Pub.Gost.C96_double_violated",
    "Verif.Pub.Gost.C96_infinity_invalid",
    "Verif.Pub.Gost.C96_infinity_violated"
   ],
   "note": "Exact except when the two points added by verification are equal or opposite: a valid signature with s + dr = 0 is rejected, and an invalid pair with s = dr can be accepted (violation theorems on a small curve)."
  },
  {
   "property": "C97",
   "status": "partial",
   "theorems": [
    "Verif.Pub.Gost.C97_newPrivateKey_partial",
    "Verif.Pub.Gost.C97_newPrivateKey_violated",
    "Verif.Pub.Gost.C97_keyRoundTrip",
    "Verif.Pub.Gost.C97_keyRoundTrip'",
    "Verif.Pub.Gost.C97_generateKey",
    "Verif.Pub.Gost.C97_agree",
    "Verif.Pub.Gost.C97_ukm_violated"
   ],
   "note": "Violations: raw keys and UKM that are nonzero multiples of q (and zero UKM) panic."
  },
  {
   "property": "C98",
   "status": "proved",
   "theorems": [
    "Verif.Pub.Gost.C98_xy2uv",
    "Verif.Pub.Gost.C98_uv2xy",
    "Verif.Pub.Gost.C98_xy_uv_xy",
    "Verif.Pub.Gost.C98_uv_xy_uv",
    "Verif.Pub.Gost.C98_equation"
   ],
   "note": "The cache of EdwardsST is left out."
  },
  {
   "property": "C99",
   "status": "partial",
   "theorems": [
    "Verif.Pub.ElGamal.C99_decrypt_partial",
    "Verif.Pub.ElGamal.C99_decrypt_violated",
    "Verif.Pub.ElGamal.C99_legacy",
    "Verif.Pub.ElGamal.C99_roundTrip",
    "Verif.Pub.ElGamal.C99_bytes",
    "Verif.Pub.ElGamal.C99_bytes_range",
    "Verif.Pub.ElGamal.C99_homomorphic",
    "Verif.Pub.ElGamal.C99_homomorphic_range_violated",
    "Verif.Pub.ElGamal.C99_homMultiple"
   ],
   "note": "Violations: Decrypt panics when c1 is a multiple of the modulus; the homomorphic range check accepts components outside the range."
  },
  {
   "property": "C100",
   "status": "partial",
   "theorems": [
    "Verif.Pub.ElGamal.C100_verify_partial",
    "Verif.Pub.ElGamal.C100_zero_violated",
    "Verif.Pub.ElGamal.C100_ends_violated",
    "Verif.Pub.ElGamal.C100_sign_partial",
    "Verif.Pub.ElGamal.C100_bytes",
    "Verif.Pub.ElGamal.C100_generate",
    "Verif.Pub.ElGamal.C100_sign_zero_violated"
   ],
   "note": "Violations: Verify accepts r = 0, s = 0 for hashes that are multiples of p-1 and s = p-1 beside s = 0; Sign can return s = 0."
  },
  {
   "property": "C101",
   "status": "partial",
   "theorems": [
    "Verif.Pub.ElGamal.C101_verify_partial",
    "Verif.Pub.ElGamal.C101_sign_partial",
    "Verif.Pub.ElGamal.C101_zero_violated",
    "Verif.Pub.ElGamal.C101_sign_zero_violated"
   ],
   "note": "Violations: Verify accepts r = 0, s = 0 for numbers that are multiples of the order of g; Sign can return s = 0."
  },
  {
   "property": "C102",
   "status": "partial",
   "theorems": [
    "Verif.Pub.Lms.C102_params",
    "Verif.Pub.Lms.C102_verify",
    "Verif.Pub.Lms.C102_sign",
    "Verif.Pub.Lms.C102_nonce_violated",
    "Verif.Pub.Lms.C102_once",
    "Verif.Pub.Lms.C102_bytes",
    "Verif.Pub.Lms.C102_sign_bytes",
    "Verif.Pub.Lms.C102_pub_bytes"
   ],
   "note": "Violation: a caller nonce of the wrong length gives a signature that Verify rejects and spends the key."
  },
  {
   "property": "C103",
   "status": "proved",
   "theorems": [
    "Verif.Pub.Lms.C103_antichain",
    "Verif.Pub.Lms.C103_forgery"
   ],
   "note": ""
  },
  {
   "property": "C104",
   "status": "partial",
   "theorems": [
    "Verif.Pub.Lms.C104_params",
    "Verif.Pub.Lms.C104_root",
    "Verif.Pub.Lms.C104_sign",
    "Verif.Pub.Lms.C104_verify",
    "Verif.Pub.Lms.C104_bytes_partial",
    "Verif.Pub.Lms.C104_panic_violated",
    "Verif.Pub.Lms.C104_sign_bytes",
    "Verif.Pub.Lms.C104_pub_bytes",
    "Verif.Pub.Lms.C104_key_bytes",
    "Verif.Pub.Lms.C104_seed_violated"
   ],
   "note": "Violations: Verify and NewSignatureFromBytes panic on inputs one to seven bytes longer than the one-time signature they start with; a key with a seed longer than M restores as another key."
  },
  {
   "property": "C105",
   "status": "proved",
   "theorems": [
    "Verif.Pub.Lms.C105_history",
    "Verif.Pub.Lms.C105_once"
   ],
   "note": "Restoring an older saved state is outside the histories: the API has no defence against it."
  },
  {
   "property": "C106",
   "status": "proved",
   "theorems": [
    "Verif.Pub.Lms.C106_binding"
   ],
   "note": ""
  },
  {
   "property": "C107",
   "status": "partial",
   "theorems": [
    "Verif.Pub.Lms.C107_verify",
    "Verif.Pub.Lms.C107_panic_violated",
    "Verif.Pub.Lms.C107_history"
   ],
   "note": "Violations: Verify panics on signatures that are cut short. The lower trees are never replaced, so upper levels add no signatures; each level signs a digest of the next public key instead of the key (not RFC 8554)."
  },
  {
   "property": "C108",
   "status": "partial",
   "theorems": [
    "Verif.Pub.Kcdsa.C108_verify_partial",
    "Verif.Pub.Kcdsa.C108_panic_violated",
    "Verif.Pub.Kcdsa.C108_signK_partial",
    "Verif.Pub.Kcdsa.C108_sign",
    "Verif.Pub.Kcdsa.C108_bytes",
    "Verif.Pub.Kcdsa.C108_signBytes",
    "Verif.Pub.Kcdsa.C108_genKey",
    "Verif.Pub.Kcdsa.C108_genKey_violated",
    "Verif.Pub.Kcdsa.C108_retry_violated"
   ],
   "note": "Violations proved: Verify panics when r has more bytes than a hash; a second attempt signs the repeated message (hash not reset) with the same k and is rejected; GenerateKey never returns when Q has fewer than eight bits."
  },
  {
   "property": "C109",
   "status": "partial",
   "theorems": [
    "Verif.Pub.Kcdsa.C109_verify",
    "Verif.Pub.Kcdsa.C109_sign_partial",
    "Verif.Pub.Kcdsa.C109_panic_violated",
    "Verif.Pub.Kcdsa.C109_bytes",
    "Verif.Pub.Kcdsa.C109_signBytes_partial",
    "Verif.Pub.Kcdsa.C109_genKey",
    "Verif.Pub.Kcdsa.C109_ppgf",
    "Verif.Pub.Kcdsa.C109_kcX",
    "Verif.Pub.Kcdsa.C109_kcX_violated"
   ],
   "note": "Violations proved: Sign panics when the block of the hash function is longer than P; GenerateX may return 0, with which Sign refuses to work."
  },
  {
   "property": "C110",
   "status": "partial",
   "theorems": [
    "Verif.Pub.Rabin.C110_roundtrip_partial",
    "Verif.Pub.Rabin.C110_decrypt",
    "Verif.Pub.Rabin.C110_zero_violated",
    "Verif.Pub.Rabin.C110_large_violated",
    "Verif.Pub.Rabin.C110_isPrime",
    "Verif.Pub.Rabin.C110_isPrime_complete",
    "Verif.Pub.Rabin.C110_genKey_partial",
    "Verif.Pub.Rabin.C110_genKey_violated",
    "Verif.Pub.Rabin.C110_equal_violated",
    "Verif.Pub.Rabin.C110_forged_violated",
    "Verif.Pub.Rabin.C110_isPrime_one_violated",
    "Verif.Pub.Rabin.C110_source_violated"
   ],
   "note": "Round trip proved for plaintexts in (0, N) as numbers. Violations proved: zero plaintexts never decrypt; plaintexts above N are encrypted but never come back; composite 175 passes the fixed-base primality test; P = Q is possible and then decryption fails; Decrypt accepts ciphertexts that are not encryptions of the result; GenerateKey never returns when the random source fails or delivers the number 1."
  },
  {
   "property": "C111",
   "status": "partial",
   "theorems": [
    "Verif.Pub.Dh.C111_agree",
    "Verif.Pub.Dh.C111_check",
    "Verif.Pub.Dh.C111_genKey",
    "Verif.Pub.Dh.C111_genKey_violated",
    "Verif.Pub.Dh.C111_check_violated",
    "Verif.Pub.Dh.C111_groups_partial",
    "Verif.Pub.Dh.C111_group8192_violated",
    "Verif.Pub.Dh.C111_length_violated",
    "Verif.Pub.Dh.C111_ec_agree",
    "Verif.Pub.Dh.C111_ec_check",
    "Verif.Pub.Dh.C111_ec_violated",
    "Verif.Pub.Dh.C111_clamp",
    "Verif.Pub.Dh.C111_x_agree",
    "Verif.Pub.Dh.C111_x_violated"
   ],
   "note": "Primality of the good moduli is not shown (only size and the order of the generator). Violations proved: the modulus of P8192 has 8188 bits and is divisible by 697127; Check accepts 0 and 1; GenerateKey never succeeds for one-byte moduli; the secret has no fixed length; ecdh Check and ComputeSecret panic on malformed encodings and ComputeSecret accepts the pair (0,0); curve25519 keys of other lengths are silently cut or padded."
  },
  {
   "property": "C112",
   "status": "partial",
   "theorems": [
    "Verif.Pub.Ecies.C112_kdf",
    "Verif.Pub.Ecies.C112_roundtrip_partial",
    "Verif.Pub.Ecies.C112_decrypt",
    "Verif.Pub.Ecies.C112_reject",
    "Verif.Pub.Ecies.C112_params",
    "Verif.Pub.Ecies.C112_sha384_violated",
    "Verif.Pub.Ecies.C112_empty_violated",
    "Verif.Pub.Ecies.C112_short_violated",
    "Verif.Pub.Ecies.C112_shift_violated"
   ],
   "note": "Round trip for messages that are not empty and parameter sets that derive enough bytes (four of the five). Violations proved: the empty message gives a nil ciphertext without an error; AES256_SHA384 panics (or errs) for every key; an authenticated ciphertext shorter than a block makes Decrypt panic; bytes can be moved from the ciphertext to the shared information."
  },
  {
   "property": "C113",
   "status": "partial",
   "theorems": [
    "Verif.Ell.C113_add_partial",
    "Verif.Ell.C113_double_partial",
    "Verif.Ell.C113_add_opposite_violated",
    "Verif.Ell.C113_scalarMult_sound",
    "Verif.Ell.C113_scalarMult_partial",
    "Verif.Ell.C113_order_violated",
    "Verif.Ell.C113_isOnCurve_partial",
    "Verif.Ell.C113_isOnCurve_violated",
    "Verif.Ell.C113_unreduced_violated"
   ],
   "note": "Every result is right (soundness for all points and scalars); complete when no intermediate point is at infinity or has a coordinate zero. Violations proved: Add of opposite points and multiplication with the order panic; IsOnCurve panics for y = 0 and y = x; coordinates that are not reduced are accepted."
  },
  {
   "property": "C114",
   "status": "partial",
   "theorems": [
    "Verif.Ell.Bit.C114_add_partial",
    "Verif.Ell.Bit.C114_add_violated",
    "Verif.Ell.Bit.C114_double_partial",
    "Verif.Ell.Bit.C114_isOnCurve",
    "Verif.Ell.Bit.C114_scalarMult_sound",
    "Verif.Ell.Bit.C114_order_violated",
    "Verif.Ell.Bit.C114_scalarMult_partial",
    "Verif.Ell.Bit.C114_wraps_violated",
    "Verif.Ell.Bit.C114_generateKey_partial",
    "Verif.Ell.Bit.C114_generateKey_violated",
    "Verif.Ell.Bit.C114_marshal",
    "Verif.Ell.Bit.C114_unmarshal_violated",
    "Verif.Ell.Bit.C114_named",
    "Verif.Ell.Bit.C114_infinity_violated",
    "Verif.Ell.Bit.C114_marshal_violated"
   ],
   "note": "Add for points that are neither equal nor opposite; ScalarMult sound for all scalars and complete for 1 to N−1 (prime N). Violations proved: Add(P, P) and Add(P, −P) panic; (0, 0) is not neutral; scalars that are multiples of the order, and N + 2, panic; GenerateKey can panic; Unmarshal does not check the curve; Marshal of a long y overwrites x. Primality of P and N of the named curves is a hypothesis."
  },
  {
   "property": "C115",
   "status": "partial",
   "theorems": [
    "Verif.Ell.Named.C115_prime_partial",
    "Verif.Ell.Named.C115_prime_violated",
    "Verif.Ell.Named.C115_tom521_violated",
    "Verif.Ell.Named.C115_twist",
    "Verif.Ell.Named.C115_twist_curve",
    "Verif.Ell.Named.C115_brainpool",
    "Verif.Ell.Named.C115_nums_violated",
    "Verif.Ell.Named.C115_binary_partial",
    "Verif.Ell.Named.C115_binary_violated"
   ],
   "note": "24 prime curves: on the curve and N·G = 0 (given that P is prime). 64 binary curves: on the curve; order not proved. Violations proved: secp112r2, secp128r2, Tom-521, numsp256t1/384t1/512t1 and x962 c2onb191v4/v5, c2onb239v4/v5 have base points that are not on the curve; Tom-521 has a 522-bit modulus."
  },
  {
   "property": "C116",
   "status": "partial",
   "theorems": [
    "Verif.Fernet.C116_encrypt",
    "Verif.Fernet.C116_decrypt_iff",
    "Verif.Fernet.C116_roundtrip_partial",
    "Verif.Fernet.C116_authentic",
    "Verif.Fernet.C116_total_partial",
    "Verif.Fernet.C116_short_violated",
    "Verif.Fernet.C116_window",
    "Verif.Fernet.C116_trailing_violated",
    "Verif.Fernet.C116_key_roundtrip",
    "Verif.Fernet.C116_key_forms",
    "Verif.Fernet.C116_keys_violated"
   ],
   "note": "Proved: token format, exact acceptance condition, round trip with one key and with lists where no earlier key shares the signing half, authenticity, time window, key forms. Violations proved: an authenticated token shorter than the header panics; text after a base64 error is ignored; with two keys that share the signing half decryption works in place, so the second key sees the damaged ciphertext. AES and SHA-256 are arbitrary functions."
  },
  {
   "property": "C117",
   "status": "partial",
   "theorems": [
    "Verif.Fpe.C117_new",
    "Verif.Fpe.C117_encrypt",
    "Verif.Fpe.C117_roundtrip_partial",
    "Verif.Fpe.C117_sign_violated",
    "Verif.Fpe.C117_case_violated",
    "Verif.Fpe.C117_total",
    "Verif.Fpe.C117_concurrent_violated"
   ],
   "note": "Round trip and conformance for strings of canonical (lower-case) numerals. Violations proved: a leading sign is accepted and lost; upper case comes back in lower case (radix up to 36); one cipher shared by two goroutines gives wrong results because the CBC state is shared. Floating-point logarithms are taken as exact."
  },
  {
   "property": "C118",
   "status": "partial",
   "theorems": [
    "Verif.Fpe.C118_new",
    "Verif.Fpe.C118_key_violated",
    "Verif.Fpe.C118_encrypt",
    "Verif.Fpe.C118_roundtrip_partial",
    "Verif.Fpe.C118_maxlen_violated",
    "Verif.Fpe.C118_maxlen",
    "Verif.Fpe.C118_case_violated",
    "Verif.Fpe.C118_sign",
    "Verif.Fpe.C118_total"
   ],
   "note": "Violations proved: NewCipher reverses the caller's key in place, so a second cipher from the same slice has another key; the longest length of the standard is refused (radix 2, 192); upper case comes back in lower case. Floating-point logarithms are taken as exact."
  },
  {
   "property": "C119",
   "status": "partial",
   "theorems": [
    "Verif.Rand.C119_hash",
    "Verif.Rand.C119_gm_partial",
    "Verif.Rand.C119_gm_tail_violated",
    "Verif.Rand.C119_limit_violated",
    "Verif.Rand.C119_interval"
   ],
   "note": "Partial: the GM variant only for requests of at most one digest (longer ones leave the tail unwritten, C119_gm_tail_violated), and the SP 800-90A limit on bytes per request is not enforced (C119_limit_violated)."
  },
  {
   "property": "C120",
   "status": "proved",
   "theorems": [
    "Verif.Rand.C120_hmac"
   ],
   "note": ""
  },
  {
   "property": "C121",
   "status": "partial",
   "theorems": [
    "Verif.Rand.C121_code",
    "Verif.Rand.C121_ctr_partial",
    "Verif.Rand.C121_df_violated",
    "Verif.Rand.C121_output_violated",
    "Verif.Rand.C121_total"
   ],
   "note": "Partial: the derivation function appends an extra zero block when length+9 is a multiple of the block size, so the output then differs from SP 800-90A (C121_df_violated, C121_output_violated); C121_ctr_partial covers all other histories."
  },
  {
   "property": "C122",
   "status": "partial",
   "theorems": [
    "Verif.Ber.C122_ber_partial",
    "Verif.Ber.C122_plain",
    "Verif.Ber.C122_der",
    "Verif.Ber.C122_sound",
    "Verif.Ber.C122_idempotent",
    "Verif.Ber.C122_total_partial",
    "Verif.Ber.C122_panic_violated",
    "Verif.Ber.C122_panic_all",
    "Verif.Ber.C122_empty_violated",
    "Verif.Ber.C122_leading_zero_violated",
    "Verif.Ber.C122_overrun_violated",
    "Verif.Ber.C122_blowup_violated"
   ],
   "note": "Proved for encodings with plain lengths (at most 4 octets, no 9 leading zero bits, below 2 GiB) and no empty indefinite element. Violated: panics on truncated long identifiers, empty indefinite elements and lengths with a leading zero octet are refused, elements that overrun their container are accepted, and overlapping elements give exponentially long results (C122_blowup_violated)."
  },
  {
   "property": "C123",
   "status": "partial",
   "theorems": [
    "Verif.Passhash.C123_generate",
    "Verif.Passhash.C123_compare",
    "Verif.Passhash.C123_roundtrip",
    "Verif.Passhash.C123_other",
    "Verif.Passhash.C123_workfactor_violated",
    "Verif.Passhash.C123_password_violated"
   ],
   "note": "Both calls are characterised by equivalences. Violated: a stored work factor above 512 panics, and so do both calls with the CMAC algorithm when the password is empty or longer than 56 bytes. Hashes and CMAC are arbitrary functions of fixed size."
  },
  {
   "property": "C124",
   "status": "partial",
   "theorems": [
    "Verif.Passhash.Fmt.C124_fmt_generate",
    "Verif.Passhash.Fmt.C124_fmt_compare",
    "Verif.Passhash.Fmt.C124_fmt_roundtrip",
    "Verif.Passhash.Fmt.C124_fmt_sound",
    "Verif.Passhash.Fmt.C124_fmt_panic_violated",
    "Verif.Passhash.Fmt.C124_fmt_malleable_violated",
    "Verif.Passhash.Plain.C124_plain_generate",
    "Verif.Passhash.Plain.C124_plain_compare",
    "Verif.Passhash.Plain.C124_plain_roundtrip",
    "Verif.Passhash.Plain.C124_plain_sound",
    "Verif.Passhash.Plain.C124_plain_unsalted_violated",
    "Verif.Passhash.Plain.C124_plain_panic_violated"
   ],
   "note": "Violated: argon2 ignores a failing random source and returns an unsalted hash; stored strings with time 0, threads 0 modulo 256 or an empty key panic; argon2fmt accepts characters added after the key when the key length is a multiple of 3. Soundness (an accepted string carries a non-empty key that Argon2 gives for the password) is proved for every string. The Argon2 function itself is arbitrary."
  },
  {
   "property": "C125",
   "status": "partial",
   "theorems": [
    "Verif.Jks.C125_key_iff",
    "Verif.Jks.C125_key_roundtrip",
    "Verif.Jks.C125_key_other",
    "Verif.Jks.C125_key_panic_violated",
    "Verif.Jks.C125_parse_iff",
    "Verif.Jks.C125_trailing_violated",
    "Verif.Jks.C125_panic_violated",
    "Verif.Jks.C125_history",
    "Verif.Jks.C125_roundtrip",
    "Verif.Jks.C125_saved",
    "Verif.Jks.C125_password",
    "Verif.Jks.C125_long_name_violated"
   ],
   "note": "All proved for stores that fit the fields of the format. Violated: a negative length panics before the hash is checked; a protected key shorter than 40 bytes panics; a name of 65536 bytes or more is written with a truncated length without an error; bytes after the hash are ignored. encoding/asn1 is an abstract pair with unwrap (wrap d) = d; the crypto.PrivateKey and x509 variants are not modelled."
  },
  {
   "property": "C126",
   "status": "partial",
   "theorems": [
    "Verif.Jks.C126_pbe_roundtrip",
    "Verif.Jks.C126_pbe_salt",
    "Verif.Jks.C126_password_bits_violated",
    "Verif.Jks.C126_parse_iff",
    "Verif.Jks.C126_empty_password_violated",
    "Verif.Jks.C126_panic_violated",
    "Verif.Jks.C126_getters_violated",
    "Verif.Jks.C126_saved",
    "Verif.Jks.C126_resave_violated",
    "Verif.Jks.C126_lost_error_violated"
   ],
   "note": "Proved: C126_pbe_roundtrip, C126_pbe_salt, C126_parse_iff, C126_saved. The rest is false of the code and its negation is proved: the getters of a store find nothing that was added to it (C126_getters_violated); a loaded store is saved without its entries and cannot be loaded again (C126_resave_violated); the error for a key without certificate is lost depending on map order (C126_lost_error_violated); a negative length panics before the hash is checked (C126_panic_violated); the empty password skips the hash check even for a file saved with a password (C126_empty_password_violated); the top bit of password bytes is ignored (C126_password_bits_violated)."
  },
  {
   "property": "C127",
   "status": "partial",
   "theorems": [
    "Verif.Jks.C127_parse_iff",
    "Verif.Jks.C127_forgery_violated",
    "Verif.Jks.C127_panic_violated",
    "Verif.Jks.C127_history",
    "Verif.Jks.C127_saved",
    "Verif.Jks.C127_version",
    "Verif.Jks.C127_resave_violated",
    "Verif.Jks.C127_reseal_violated",
    "Verif.Jks.C127_open_any_violated",
    "Verif.Jks.C127_wrong_password_violated",
    "Verif.Jks.C127_open_panic_violated"
   ],
   "note": "Proved: C127_parse_iff, C127_history, C127_saved, C127_version. False of the code, with the negation proved: the MAC key of the default version has 16 bits, so that one of 65536 forged files loads under every password (C127_forgery_violated); saving a loaded store with an unopened sealed key panics (C127_resave_violated); an opened one is saved under the empty password (C127_reseal_violated); a failed attempt to open can replace the key (C127_wrong_password_violated); an opened key opens with any password (C127_open_any_violated); negative lengths panic (C127_panic_violated, C127_open_panic_violated)."
  },
  {
   "property": "C128",
   "status": "partial",
   "theorems": [
    "Verif.Jks.C128_parse_iff",
    "Verif.Jks.C128_saved",
    "Verif.Jks.C128_short_violated"
   ],
   "note": "Proved: C128_parse_iff, C128_saved. C128_short_violated: for every password there are files on which loading panics, because the length test after decryption can never be true."
  },
  {
   "property": "C129",
   "status": "partial",
   "theorems": [
    "Verif.Sm2.C129_verify",
    "Verif.Sm2.C129_sign_verify_partial",
    "Verif.Sm2.C129_accepts_iff",
    "Verif.Sm2.C129_zero_violated",
    "Verif.Sm2.C129_last_key_violated",
    "Verif.Sm2.C129_generate",
    "Verif.Sm2.C129_import",
    "Verif.Sm2.C129_public",
    "Verif.Sm2.C129_public_valid",
    "Verif.Sm2.C129_za",
    "Verif.Sm2.C129_za_injective",
    "Verif.Sm2.C129_encoding",
    "Verif.Sm2.C129_trailing_violated",
    "Verif.Sm2.C129_api_partial"
   ],
   "note": "Signatures with r = 0 are returned by Sign and refused by Verify (C129_zero_violated), hence the round trip needs r /= 0. A generated key can be n-1, for which Sign panics (C129_last_key_violated). Bytes after the ASN.1 signature are ignored (C129_trailing_violated)."
  },
  {
   "property": "C130",
   "status": "partial",
   "theorems": [
    "Verif.Sm2.C130_roundtrip",
    "Verif.Sm2.C130_api",
    "Verif.Sm2.C130_standard",
    "Verif.Sm2.C130_decrypt_iff",
    "Verif.Sm2.C130_any_key_violated",
    "Verif.Sm2.C130_panic_violated",
    "Verif.Sm2.C130_asn1_panic_violated",
    "Verif.Sm2.C130_asn1_violated",
    "Verif.Sm2.C130_empty_violated"
   ],
   "note": "Proved: round trip and exactness. Disagreements proved: the neutral element as C1 is taken, so one ciphertext decrypts under every key; Decrypt panics on empty input, on input one byte short, on points off the curve and on oversized ASN.1 numbers; the ASN.1 form is malleable (signs, trailing bytes); an empty message can never be encrypted."
  },
  {
   "property": "C131",
   "status": "partial",
   "theorems": [
    "Verif.Sm2.C131_shared",
    "Verif.Sm2.C131_initiator",
    "Verif.Sm2.C131_responder",
    "Verif.Sm2.C131_agreement",
    "Verif.Sm2.C131_hat",
    "Verif.Sm2.C131_one_call",
    "Verif.Sm2.C131_one_call_key_partial",
    "Verif.Sm2.C131_order_violated",
    "Verif.Sm2.C131_infinite_violated",
    "Verif.Sm2.C131_long_id_violated"
   ],
   "note": "The one-call form: key only of the standard when no coordinate of the shared point begins with a zero byte (C131_one_call_key_partial); confirmations hash the ephemeral points in the other order (C131_order_violated); the neutral shared point is not refused (C131_infinite_violated); identities of B that are too long are all treated as absent (C131_long_id_violated)."
  },
  {
   "property": "C132",
   "status": "partial",
   "theorems": [
    "Verif.Strm.KCipher2.C132_kcipher2_copies_plaintext_violated",
    "Verif.Strm.Panama.C132_panama_long_violated",
    "Verif.Strm.Rabbit.C132_rabbit_stream",
    "Verif.Strm.Salsa20.C132_salsa20_partial",
    "Verif.Strm.Salsa20.C132_salsa20_wrap_violated",
    "Verif.Strm.Salsa20.C132_salsa20_nonce_violated",
    "Verif.Strm.Salsa20.C132_salsa20_nonce_aliased_violated",
    "Verif.Strm.C132_roundtrip_partial"
   ],
   "note": "false for Panama calls of 2^31 bytes and more (C132_panama_long_violated), for KCipher-2 with two buffers (C132_kcipher2_copies_plaintext_violated), for Salsa20 past byte 2^64 and in its use of the nonce (C132_salsa20_*_violated); proved otherwise"
  },
  {
   "property": "C133",
   "status": "partial",
   "theorems": [
    "Verif.Strm.Hc.C133_hc",
    "Verif.Strm.KCipher2.C133_kcipher2_partial",
    "Verif.Strm.Panama.C133_panama_partial",
    "Verif.Strm.Trivium.C133_trivium"
   ],
   "note": "Panama for calls below 2^31 bytes and KCipher-2 in place, see C132; everything else in full"
  },
  {
   "property": "C134",
   "status": "partial",
   "theorems": [
    "Verif.Strm.Rabbit.C134_rabbit_rfc4503_violated",
    "Verif.Strm.Rabbit.C134_rabbit_counters",
    "Verif.Strm.Rabbit.C134_rabbit_iv_violated"
   ],
   "note": "the claims as a user expects them are false; the theorems are the counterexamples"
  },
  {
   "property": "C135",
   "status": "partial",
   "theorems": [
    "Verif.Strm.Grain.C135_grain_seal_exact",
    "Verif.Strm.Grain.C135_grain_seal_partial",
    "Verif.Strm.Grain.C135_grain_seal_panics_iff",
    "Verif.Strm.Grain.C135_grain_open_accepts",
    "Verif.Strm.Grain.C135_grain_open_rejects",
    "Verif.Strm.Grain.C135_grain_open_iff_partial",
    "Verif.Strm.Grain.C135_grain_roundtrip",
    "Verif.Strm.Grain.C135_grain_der_violated",
    "Verif.Strm.Grain.C135_grain_forgery_violated",
    "Verif.Strm.Grain.C135_grain_stream",
    "Verif.Strm.Grain.C135_grain_stream_roundtrip",
    "Verif.Strm.Grain.C135_grain_nonce_violated"
   ],
   "note": "false from 128 bytes of additional data on (C135_grain_der_violated, C135_grain_forgery_violated) and for stream nonces that are not of 12 bytes (C135_grain_nonce_violated)"
  },
  {
   "property": "C136",
   "status": "partial",
   "theorems": [
    "Verif.Strm.Spritz.C136_spritz_state",
    "Verif.Strm.Spritz.C136_spritz_roundtrip_partial",
    "Verif.Strm.Spritz.C136_spritz_stream",
    "Verif.Strm.Spritz.C136_spritz_recut",
    "Verif.Strm.Spritz.C136_spritz_same_object_violated",
    "Verif.Strm.Wake.C136_wake_roundtrip_partial",
    "Verif.Strm.Wake.C136_wake_words",
    "Verif.Strm.Wake.C136_wake_cuts_violated",
    "Verif.Strm.Wake.C136_wake_same_object_violated",
    "Verif.Strm.Wake.C136_wake_long_violated"
   ],
   "note": "false for one object in both directions, for differing cuts and for calls of 2^31 bytes and more (C136_*_violated)"
  },
  {
   "property": "C137",
   "status": "proved",
   "theorems": [
    "Verif.Pkcs.C137_derive_key",
    "Verif.Pkcs.C137_derive_key_unique",
    "Verif.Pkcs.C137_cipher_names",
    "Verif.Pkcs.C137_encrypt_exact",
    "Verif.Pkcs.C137_decrypt_exact",
    "Verif.Pkcs.C137_roundtrip",
    "Verif.Pkcs.C137_wrong_password_undetected_violated"
   ],
   "note": "C137_wrong_password_undetected_violated shows that bad padding is accepted."
  },
  {
   "property": "C138",
   "status": "proved",
   "theorems": [
    "Verif.Pkcs.C138_bmp_encode",
    "Verif.Pkcs.C138_bmp_injective",
    "Verif.Pkcs.C138_bmp_roundtrip",
    "Verif.Pkcs.C138_bmp_unterminated_violated",
    "Verif.Pkcs.C138_invalid_utf8_passwords_violated",
    "Verif.Pkcs.C138_identifiers",
    "Verif.Pkcs.C138_key_derivation",
    "Verif.Pkcs.C138_count_unchecked_violated",
    "Verif.Pkcs.C138_encrypt_exact",
    "Verif.Pkcs.C138_decrypt_exact",
    "Verif.Pkcs.C138_roundtrip",
    "Verif.Pkcs.C138_wrong_password_undetected_violated",
    "Verif.Pkcs.C138_rc2_salt_size_violated",
    "Verif.Pkcs.C138_with_key_size_violated"
   ],
   "note": "The violated parts are separate theorems with the suffix _violated."
  },
  {
   "property": "C139",
   "status": "partial",
   "theorems": [
    "Verif.Pkcs.Pbes2.C139_encrypt_exact",
    "Verif.Pkcs.Pbes2.C139_missing_options",
    "Verif.Pkcs.Pbes2.C139_roundtrip",
    "Verif.Pkcs.Pbes2.C139_decrypt_sound",
    "Verif.Pkcs.Pbes2.C139_pem_dispatch",
    "Verif.Pkcs.Pbes2.C139_pem_roundtrip",
    "Verif.Pkcs.Pbes2.C139_nil_cipher_panics_violated",
    "Verif.Pkcs.Pbes2.C139_rc2_key_length_panics_violated",
    "Verif.Pkcs.Pbes2.C139_wrong_password_undetected_violated",
    "Verif.Pkcs.Pbes2.C139_rc5_standard_refused_violated",
    "Verif.Pkcs.Pbes2.C139_seed_modes_swapped_violated",
    "Verif.Pkcs.Pbes2.C139_unknown_name_violated",
    "Verif.Pkcs.Pbes2.C139_ccm_large_panics_violated"
   ],
   "note": "Encryption exact, round trip, soundness and PEM dispatch proved for all ciphers and options. Violated: RC2 key lengths above 128 in a file and CCM data from 2^24 bytes panic, nil cipher panics in pkcs8.EncryptPEMBlock, wrong passwords are not noticed outside GCM/CCM, SEED CFB and OFB identifiers are swapped, RC5 parameters of RFC 8018 are refused, unknown names fall back silently."
  },
  {
   "property": "C140",
   "status": "partial",
   "theorems": [
    "Verif.Zuc.C140_zuc128",
    "Verif.Zuc.C140_zuc256",
    "Verif.Zuc.C140_eea",
    "Verif.Zuc.C140_iv_panics_violated",
    "Verif.Zuc.C140_macbits_panics_violated",
    "Verif.Zuc.C140_cut_partial",
    "Verif.Zuc.C140_cut_exact",
    "Verif.Zuc.C140_cut_violated",
    "Verif.Zuc.C140_roundtrip_partial",
    "Verif.Zuc.C140_eea3",
    "Verif.Zuc.C140_eea3_roundtrip",
    "Verif.Zuc.C140_eea3_in_place_violated",
    "Verif.Zuc.C140_eea3_short",
    "Verif.Zuc.C140_object",
    "Verif.Zuc.C140_object_room"
   ],
   "note": "Constructors, key words, EeaEncrypt for every bit length and the incremental object are proved in full. Violated and proved so: XORKeyStream called with lengths not a multiple of 4 loses key stream (C140_cut_violated), EeaEncrypt in place zeroes the message (C140_eea3_in_place_violated), wrong iv or negative macbits panic."
  },
  {
   "property": "C141",
   "status": "partial",
   "theorems": [
    "Verif.Zuc.C141_tag_partial",
    "Verif.Zuc.C141_short",
    "Verif.Zuc.C141_eia_partial",
    "Verif.Zuc.C141_forgery_violated",
    "Verif.Zuc.C141_standard_violated",
    "Verif.Zuc.C141_reset_violated",
    "Verif.Zuc.C141_sum_again_violated"
   ],
   "note": "Independence of the cut and the exact value are proved for all inputs: the tag is 128-EIA3 over the key stream with its first word repeated. Hence it is not 128-EIA3 (C141_standard_violated), and for every key a message and the one with first word ffffffff for 00000000 have equal or complementary tags (C141_forgery_violated). Reset and a second Sum give other tags (C141_reset_violated, C141_sum_again_violated)."
  },
  {
   "property": "C142",
   "status": "partial",
   "theorems": [
    "Verif.Zuc.C142_tag",
    "Verif.Zuc.C142_short",
    "Verif.Zuc.C142_reset_violated",
    "Verif.Zuc.C142_sum_again_violated"
   ],
   "note": "The tag is proved to be the standard's for all inputs (C142_tag). Reset zeroes the registers and never reloads them, and Sum changes the object: C142_reset_violated, C142_sum_again_violated."
  },
  {
   "property": "C143",
   "status": "partial",
   "theorems": [
    "Verif.Xmss.C143_index_partial",
    "Verif.Xmss.C143_refuses_partial",
    "Verif.Xmss.C143_wrap_violated",
    "Verif.Xmss.C143_last_violated"
   ],
   "note": "Indices 0..2^h-2 are proved (C143_index_partial) and spent keys refuse for ever when the index field has room for 2^h (C143_refuses_partial). Violations: the last index signs with seeds already wiped to zero and carries index ff..ff (C143_last_violated); the sets of height 40 never refuse and wrap to index 0 (C143_wrap_violated)."
  },
  {
   "property": "C144",
   "status": "partial",
   "theorems": [
    "Verif.Xmss.C144_accepts_partial"
   ],
   "note": "Proved for every history shorter than 2^h (C144_accepts_partial); the signature at the last index is the one C143_last_violated describes."
  },
  {
   "property": "C145",
   "status": "partial",
   "theorems": [
    "Verif.Xmss.C145_message_ignored_violated",
    "Verif.Xmss.C145_buffer_violated",
    "Verif.Xmss.C145_open_partial",
    "Verif.Xmss.C145_mt_message_violated"
   ],
   "note": "For single layer sets the buffer ends with the embedded message on acceptance and zeros on rejection (C145_open_partial). Violations: the verdict is independent of the caller's message (C145_message_ignored_violated); a message shorter than the bare signature panics (C145_buffer_violated); for multi layer sets the message handed back is zeros (C145_mt_message_violated)."
  },
  {
   "property": "C146",
   "status": "partial",
   "theorems": [
    "Verif.Xmss.C146_digest_partial",
    "Verif.Xmss.C146_digest_violated"
   ],
   "note": "Holds for all sets but the SHA2_..._512 ones (C146_digest_partial); those use SHA-256 with n = 64 and half of every root is zero (C146_digest_violated)."
  },
  {
   "property": "C147",
   "status": "proved",
   "theorems": [
    "Verif.Xmss.C147_incomparable"
   ],
   "note": "Proved for the chain lengths used by Sign and Verify in the model of C144, with the length tables of the three packages."
  },
  {
   "property": "C148",
   "status": "proved",
   "theorems": [
    "Verif.Ascon.C148_keys",
    "Verif.Ascon.C148_seal",
    "Verif.Ascon.C148_seal_panics_iff",
    "Verif.Ascon.C148_open_accepts",
    "Verif.Ascon.C148_open_rejects",
    "Verif.Ascon.C148_roundtrip",
    "Verif.Ascon.C148_round_injective",
    "Verif.Ascon.C148_perm_injective"
   ],
   "note": "Proved against a bit and byte level specification of Ascon v1.2 (S-box table, rotations, padding). The assembly routines are not modelled; the generic Go ones are."
  },
  {
   "property": "C149",
   "status": "partial",
   "theorems": [
    "Verif.Xoodyak.C149_encrypt",
    "Verif.Xoodyak.C149_decrypt_iff",
    "Verif.Xoodyak.C149_decrypt_rejects",
    "Verif.Xoodyak.C149_seal_partial",
    "Verif.Xoodyak.C149_open_accepts_partial",
    "Verif.Xoodyak.C149_open_rejects_partial",
    "Verif.Xoodyak.C149_seal_panics_iff",
    "Verif.Xoodyak.C149_keys",
    "Verif.Xoodyak.C149_seal_key_capacity_violated"
   ],
   "note": "Full for the byte functions and for keys whose slice has no spare capacity over other data. AbsorbKey appends to the caller's key slice: with spare capacity it overwrites the bytes behind the key, shown as C149_seal_key_capacity_violated, where the plaintext itself is corrupted."
  },
  {
   "property": "C150",
   "status": "partial",
   "theorems": [
    "Verif.Xoodyak.C150_encrypt_stream",
    "Verif.Xoodyak.C150_decrypt_stream_partial",
    "Verif.Xoodyak.C150_streams",
    "Verif.Xoodyak.C150_authenticate_only",
    "Verif.Xoodyak.C150_lengths",
    "Verif.Xoodyak.C150_round_trip",
    "Verif.Xoodyak.C150_empty_read_hangs_violated",
    "Verif.Xoodyak.C150_short_tag_violated"
   ],
   "note": "Two parts are false of the code and shown so: a Read with an empty buffer while plaintext is waiting never ends (C150_empty_read_hangs_violated), and a stream of 15 bytes is accepted if the tag ends in zero (C150_short_tag_violated). Underlying writers that fail are not modelled; readers that fail are modelled but the theorem is for those that do not."
  },
  {
   "property": "C151",
   "status": "partial",
   "theorems": [
    "Verif.Xoodyak.C151_hash",
    "Verif.Xoodyak.C151_mac",
    "Verif.Xoodyak.C151_hash_object_partial",
    "Verif.Xoodyak.C151_mac_object_partial",
    "Verif.Xoodyak.C151_hash_chunks_violated",
    "Verif.Xoodyak.C151_mac_chunks_violated",
    "Verif.Xoodyak.C151_sum_twice_violated",
    "Verif.Xoodyak.C151_mac_reset_violated",
    "Verif.Xoodyak.C151_mac_reset_key_violated"
   ],
   "note": "The one-shot functions are proved in full. For the objects the theorem holds when the first block does not come from several Writes; otherwise the code is wrong: the digest depends on the cut (C151_hash_chunks_violated, C151_mac_chunks_violated), Sum changes the object (C151_sum_twice_violated), and Reset of a MAC object drops the key for every key (C151_mac_reset_violated)."
  },
  {
   "property": "C152",
   "status": "partial",
   "theorems": [
    "Verif.Xoodyak.C152_keyed_ops_partial",
    "Verif.Xoodyak.C152_hash_ops_partial",
    "Verif.Xoodyak.C152_keyless_panics",
    "Verif.Xoodyak.C152_key_too_long",
    "Verif.Xoodyak.C152_ratchet_violated",
    "Verif.Xoodyak.C152_absorb_after_squeeze_violated"
   ],
   "note": "Up does not set the phase, so an Absorb or Ratchet straight after a Squeeze permutes once too often: C152_ratchet_violated and C152_absorb_after_squeeze_violated. The theorems are for sequences that avoid this."
  },
  {
   "property": "C153",
   "status": "proved",
   "theorems": [
    "Verif.Cipher.C153_skipjack",
    "Verif.Cipher.C153_skipjack_table"
   ],
   "note": "Full."
  },
  {
   "property": "C154",
   "status": "partial",
   "theorems": [
    "Verif.Cipher.C154_gost_exact",
    "Verif.Cipher.C154_gost_partial",
    "Verif.Cipher.C154_gost_long_slices_violated",
    "Verif.Cipher.C154_gost_rejects",
    "Verif.Cipher.C154_gost_tables_partial",
    "Verif.Cipher.C154_gost_central_bank_violated"
   ],
   "note": "C154_gost_partial for slices of one block; exact behaviour for all slices in C154_gost_exact. Longer slices have the bytes behind the block overwritten (C154_gost_long_slices_violated), and SboxCentralBankTestParamSet has a mistyped entry (C154_gost_central_bank_violated); all other tables are permutations (C154_gost_tables_partial)."
  },
  {
   "property": "C155",
   "status": "partial",
   "theorems": [
    "Verif.Cipher.C155_magma",
    "Verif.Cipher.C155_magma_concurrent_violated",
    "Verif.Cipher.C155_magma_wrong"
   ],
   "note": "Full for one caller at a time; the cipher keeps its working block in the object, so two concurrent Encrypt calls mix blocks (C155_magma_concurrent_violated, C155_magma_wrong)."
  },
  {
   "property": "C156",
   "status": "partial",
   "theorems": [
    "Verif.Cipher.C156_shacal2",
    "Verif.Cipher.C156_shacal2_key_tail_violated",
    "Verif.Cipher.C156_shacal2_long_key_violated"
   ],
   "note": "Block cipher property full; key bytes after the last whole word and after the 64th byte are silently ignored (C156_shacal2_key_tail_violated, C156_shacal2_long_key_violated)."
  },
  {
   "property": "C157",
   "status": "proved",
   "theorems": [
    "Verif.Cipher.C157_whirlx"
   ],
   "note": "Full."
  },
  {
   "property": "C158",
   "status": "partial",
   "theorems": [
    "Verif.Cipher.C158_twine_partial",
    "Verif.Cipher.C158_twine_long_src_violated",
    "Verif.Cipher.C158_twine_short_src_violated"
   ],
   "note": "C158_twine_partial for src of exactly one block; longer src panics and shorter src is zero-filled instead of a panic (C158_twine_long_src_violated, C158_twine_short_src_violated)."
  },
  {
   "property": "C159",
   "status": "proved",
   "theorems": [
    "Verif.Cipher.C159_cascade"
   ],
   "note": "Full; Lcm's division in float64 is modelled as exact."
  },
  {
   "property": "C160",
   "status": "partial",
   "theorems": [
    "Verif.Cipher.C160_lion_partial",
    "Verif.Cipher.C160_lion_long",
    "Verif.Cipher.C160_lion_long_dst_violated",
    "Verif.Cipher.C160_lion_short_key_violated",
    "Verif.Cipher.C160_lion_long_key_violated"
   ],
   "note": "C160_lion_partial for slices of one block. With a longer dst the bytes behind the block are hashed and overwritten, and the block cannot be decrypted (C160_lion_long_dst_violated; exact in C160_lion_long). Keys are zero-filled or cut without an error (C160_lion_short_key_violated, C160_lion_long_key_violated)."
  },
  {
   "property": "C161",
   "status": "proved",
   "theorems": [
    "Verif.Strm.Enigma.C161_enigma",
    "Verif.Strm.Enigma.C161_enigma_keys",
    "Verif.Strm.Enigma.C161_enigma_roundtrip",
    "Verif.Strm.Enigma.C161_enigma_xor_violated"
   ],
   "note": "Full. It is not a key stream that is XORed, which the name of the method promises: C161_enigma_xor_violated."
  },
  {
   "property": "C162",
   "status": "partial",
   "theorems": [
    "Verif.Cipher.C162_two_des_partial",
    "Verif.Cipher.C162_two_des_key_tail_violated"
   ],
   "note": "The frame holds outside the spare capacity of the key; with 8 bytes or more of it the 8 bytes behind the key are overwritten (C162_two_des_key_tail_violated)."
  },
  {
   "property": "C163",
   "status": "proved",
   "theorems": [
    "Verif.Rabin.C163_table",
    "Verif.Rabin.C163_window",
    "Verif.Rabin.C163_plain",
    "Verif.Rabin.C163_unique",
    "Verif.Rabin.C163_collision",
    "Verif.Rabin.C163_sum",
    "Verif.Rabin.C163_bits_violated"
   ],
   "note": "Full. The comment on the number of bits of the hash is off by one (C163_bits_violated)."
  },
  {
   "property": "C164",
   "status": "partial",
   "theorems": [
    "Verif.Rabin.C164_unique",
    "Verif.Rabin.C164_cover",
    "Verif.Rabin.C164_resync",
    "Verif.Rabin.C164_chunks_partial",
    "Verif.Rabin.C164_reset_partial",
    "Verif.Rabin.C164_new",
    "Verif.Rabin.C164_lost_violated",
    "Verif.Rabin.C164_empty_violated"
   ],
   "note": "C164_chunks_partial for readers that report io.EOF by a further call. A reader that returns the last bytes together with io.EOF loses data (C164_lost_violated), and an empty chunk without error may come before io.EOF (C164_empty_violated)."
  },
  {
   "property": "C165",
   "status": "partial",
   "theorems": [
    "Verif.Pub.Rsa.C165_private",
    "Verif.Pub.Rsa.C165_roundtrip_partial",
    "Verif.Pub.Rsa.C165_long_violated",
    "Verif.Pub.Rsa.C165_panic_violated",
    "Verif.Pub.Rsa.C165_forged_violated"
   ],
   "note": "C165_roundtrip_partial for messages up to K-11 bytes. Longer messages get K-11 zero bytes in front and cannot be decrypted (C165_long_violated), a block without a zero panics (C165_panic_violated), the padding is not checked, so that anybody can make accepted ciphertexts (C165_forged_violated). rsa.EncryptPKCS1v15 and DecryptPKCS1v15 of the standard library are parameters."
  },
  {
   "property": "C166",
   "status": "partial",
   "theorems": [
    "Verif.Pub.Rsa.C166_roundtrip_partial",
    "Verif.Pub.Rsa.C166_zeros_violated",
    "Verif.Pub.Rsa.C166_large_violated"
   ],
   "note": "C166_roundtrip_partial for messages below the modulus without leading zeros. Leading zeros are lost (C166_zeros_violated) and larger messages come back reduced without an error (C166_large_violated)."
  },
  {
   "property": "C167",
   "status": "partial",
   "theorems": [
    "Verif.Pub.Bign.C167_verifyBytes",
    "Verif.Pub.Bign.C167_nonce",
    "Verif.Pub.Bign.C167_sign_verifies_partial",
    "Verif.Pub.Bign.C167_zero_nonce_violated",
    "Verif.Pub.Bign.C167_long_r_violated",
    "Verif.Pub.Bign.C167_sign_refused",
    "Verif.Pub.Bign.C167_negative_r_violated",
    "Verif.Pub.Bign.C167_adata",
    "Verif.Pub.Bign.C167_makeAdata",
    "Verif.Pub.Bign.C167_long_adata_violated",
    "Verif.Pub.Bign.C167_zero_violated",
    "Verif.Pub.Bign.C167_short_hash_violated"
   ],
   "note": "verification exact; signing correct for every nonce unless S1 = 0 and for hash functions of at least l octets; six violations proved"
  },
  {
   "property": "C168",
   "status": "partial",
   "theorems": [
    "Verif.Tool.Math.C168_ceil_floor",
    "Verif.Tool.Math.C168_round_partial",
    "Verif.Tool.Math.C168_round_violated",
    "Verif.Tool.Math.C168_odd",
    "Verif.Tool.Math.C168_odd_argument_violated",
    "Verif.Tool.Math.C168_rotate",
    "Verif.Tool.Math.C168_rotate_violated",
    "Verif.Tool.Math.C168_e",
    "Verif.Tool.Math.C168_sqrt",
    "Verif.Tool.Math.C168_phi",
    "Verif.Tool.Math.C168_sqrt_violated"
   ],
   "note": "Ceil, Floor, Odd (value), rotations up to the word size, E, Phi and the exact error of Sqrt proved; Round right for negative numbers only; four violations"
  },
  {
   "property": "C169",
   "status": "proved",
   "theorems": [
    "Verif.Rand.Art.C169_randomart",
    "Verif.Rand.Art.C169_size"
   ],
   "note": "for every string; the sending goroutine is modelled as the sequence of bytes it sends"
  },
  {
   "property": "C170",
   "status": "partial",
   "theorems": [
    "Verif.Rand.Art.C170_read",
    "Verif.Rand.Art.C170_key",
    "Verif.Rand.Art.C170_stream_violated",
    "Verif.Rand.Art.C170_short_read_violated",
    "Verif.Rand.Art.C170_zero"
   ],
   "note": "exact results proved; freshness of successive reads and short reads violated"
  },
  {
   "property": "C171",
   "status": "partial",
   "theorems": [
    "Verif.Cipher.Threefish.C171_new",
    "Verif.Cipher.Threefish.C171_inverse",
    "Verif.Cipher.Threefish.C171_long_source_violated",
    "Verif.Cipher.Threefish.C171_short_destination_violated",
    "Verif.Cipher.Threefish.C171_threefish"
   ],
   "note": "The round trip and the refinement are proved for all keys, tweaks and blocks; the length checks of Encrypt and Decrypt are violated by the code (C171_long_source_violated, C171_short_destination_violated)."
  },
  {
   "property": "C172",
   "status": "partial",
   "theorems": [
    "Verif.Cipher.Belt.C172_block_cipher",
    "Verif.Cipher.Belt.C172_rounds_partial",
    "Verif.Cipher.Belt.C172_expand_partial",
    "Verif.Cipher.Belt.C172_rotation_violated",
    "Verif.Cipher.Belt.C172_key192_violated"
   ],
   "note": "Block cipher laws proved for all keys; what is computed is proved for all keys and blocks up to the direction of the rotation; conformance to the standard is violated (C172_rotation_violated, C172_key192_violated)."
  },
  {
   "property": "C173",
   "status": "partial",
   "theorems": [
    "Verif.Cipher.Magenta.C173_magenta",
    "Verif.Cipher.Magenta.C173_effect",
    "Verif.Cipher.Magenta.C173_block_cipher_partial",
    "Verif.Cipher.Magenta.C173_long_slices_violated",
    "Verif.Cipher.Magenta.C173_table"
   ],
   "note": "Function and inversion proved for all keys and blocks; block-only effect proved for src shorter than 20 bytes or dst of one block, violated otherwise (C173_long_slices_violated)."
  },
  {
   "property": "C174",
   "status": "partial",
   "theorems": [
    "Verif.Cipher.Safer.C174_block_cipher",
    "Verif.Cipher.Safer.C174_safer",
    "Verif.Cipher.Safer.C174_bad_rounds_violated"
   ],
   "note": "The part of the claim that a bad round count is refused is false: C174_bad_rounds_violated shows every such cipher is the identity."
  },
  {
   "property": "C175",
   "status": "proved",
   "theorems": [
    "Verif.Cipher.Loki97.C175_block_cipher",
    "Verif.Cipher.Loki97.C175_loki97"
   ],
   "note": ""
  },
  {
   "property": "C176",
   "status": "partial",
   "theorems": [
    "Verif.Cipher.E2.C176_inverse_partial",
    "Verif.Cipher.E2.C176_block_cipher_partial",
    "Verif.Cipher.E2.C176_new_panics_violated",
    "Verif.Cipher.E2.C176_sbox"
   ],
   "note": "Fails: NewCipher divides by zero when one of the eight multipliers of the key schedule is 1 (C176_new_panics_violated gives a 16-byte key); C176_block_cipher_partial says exactly when. Slices longer than a block are overwritten with zeros after the block. Not proved: equality with the published E2 (only its substitution table, C176_sbox)."
  },
  {
   "property": "C177",
   "status": "partial",
   "theorems": [
    "Verif.Cipher.Saferplus.C177_block_cipher_partial",
    "Verif.Cipher.Saferplus.C177_long_source_violated",
    "Verif.Cipher.Saferplus.C177_block_interface_violated"
   ],
   "note": "Fails: Encrypt and Decrypt panic whenever src is longer than a block (C177_long_source_violated, C177_block_interface_violated). For one-block sources C177_block_cipher_partial proves inverses and equality with SAFER SK-64 and SK-128 with 8 rounds; the cipher is thus not SAFER+ as published (blocks of 16 bytes)."
  },
  {
   "property": "C178",
   "status": "proved",
   "theorems": [
    "Verif.Cipher.Square.C178_block_cipher",
    "Verif.Cipher.Square.C178_square",
    "Verif.Cipher.Square.C178_sbox"
   ],
   "note": "C178_block_cipher, C178_square (refinement), C178_sbox (the table is affine in the field inverse)."
  },
  {
   "property": "C179",
   "status": "proved",
   "theorems": [
    "Verif.Cipher.Mars.C179_block_cipher",
    "Verif.Cipher.Mars.C179_mars",
    "Verif.Cipher.Mars.C179_key_words",
    "Verif.Cipher.Mars.C179_odd"
   ],
   "note": "The 512-word S-box is the one of the code, in model and specification; the vectors of the package's tests are checked."
  }
 ]
}