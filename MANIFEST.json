{
 "claims": [
  {
   "property": "C01",
   "status": "proved",
   "theorems": [
    "Verif.Props.C01_sm3_sum_conforms",
    "Verif.Props.C01_sm3_sum_length"
   ],
   "note": ""
  },
  {
   "property": "C02",
   "status": "proved",
   "theorems": [
    "Verif.Props.C02_sm3_history_refines",
    "Verif.Props.C02_sm3_chunking"
   ],
   "note": ""
  },
  {
   "property": "C03",
   "status": "proved",
   "theorems": [
    "Verif.Props.C03_sm4_inverse",
    "Verif.Props.C03_sm4_inverse_in_place"
   ],
   "note": ""
  },
  {
   "property": "C04",
   "status": "proved",
   "theorems": [
    "Verif.Props.C04_sm4_conforms"
   ],
   "note": ""
  },
  {
   "property": "C05",
   "status": "proved",
   "theorems": [
    "Verif.Props.C05_newCipher_iff",
    "Verif.Props.C05_crypt_frame",
    "Verif.Props.C05_short_panics"
   ],
   "note": "The bytes that are written before a panic with a short dst are in C139."
  },
  {
   "property": "C06",
   "status": "proved",
   "theorems": [
    "Verif.Props.C06_aes_roundtrip",
    "Verif.Props.C06_unpad_pad",
    "Verif.Props.C06_unpad_pad_256_fails",
    "Verif.Props.C06_padding"
   ],
   "note": "crypto/aes is a parameter with stated laws, instantiated by SM4."
  },
  {
   "property": "C07",
   "status": "proved",
   "theorems": [
    "Verif.Props.C07_aesDecrypt_rejects"
   ],
   "note": ""
  },
  {
   "property": "C08",
   "status": "partial",
   "theorems": [
    "Verif.Props.C08_unpadding_partial",
    "Verif.Props.C08_unpadding_accepts_malformed",
    "Verif.Props.C08_unpadding_empty_panics"
   ],
   "note": "The property is false of the code: proved negation with witness, and exact characterisation of what is accepted."
  },
  {
   "property": "C09",
   "status": "partial",
   "theorems": [
    "Verif.Props.C09_caller_memory_partial",
    "Verif.Props.C09_caller_memory_overwritten"
   ],
   "note": "The property is false of the code: proved negation with witness, and the exact frame."
  },
  {
   "property": "C10",
   "status": "proved",
   "theorems": [
    "Verif.Props.C10_compressed_roundtrip",
    "Verif.Props.C10_supported_curves",
    "Verif.Props.C10_two_torsion_fails"
   ],
   "note": "Generic theorem for any odd prime field, then the six supported curves. P-224 decoding finishes only once a suitable random draw occurs; the theorem says exactly when."
  },
  {
   "property": "C11",
   "status": "proved",
   "theorems": [
    "Verif.Props.C11_uncompressed_roundtrip"
   ],
   "note": ""
  },
  {
   "property": "C12",
   "status": "partial",
   "theorems": [
    "Verif.Props.C12_decoded_on_curve_partial",
    "Verif.Props.C12_off_curve_accepted"
   ],
   "note": "False of the code for uncompressed encodings (the check is commented out): negation proved with a witness; proved for compressed encodings."
  },
  {
   "property": "C13",
   "status": "proved",
   "theorems": [
    "Verif.Props.C13_curveSqrt",
    "Verif.Props.C13_zero_fails"
   ],
   "note": "0 is treated as a non-residue when P = 1 mod 4 (C13_zero_fails)."
  },
  {
   "property": "C14",
   "status": "partial",
   "theorems": [
    "Verif.Props.C14_decode_injective_partial",
    "Verif.Props.C14_trailing_bytes_accepted",
    "Verif.Props.C14_unreduced_x_accepted",
    "Verif.Props.C14_encodings"
   ],
   "note": "False of the code: trailing bytes are ignored. Injectivity proved for exact-length strings of one mode; C14_encodings gives the exact set of byte strings that decode to a given point."
  },
  {
   "property": "C15",
   "status": "proved",
   "theorems": [
    "Verif.Props.C15_public_roundtrip"
   ],
   "note": "P-224 parsing finishes only once a suitable random draw occurs; the theorem says exactly when."
  },
  {
   "property": "C16",
   "status": "proved",
   "theorems": [
    "Verif.Props.C16_public_injective"
   ],
   "note": ""
  },
  {
   "property": "C17",
   "status": "proved",
   "theorems": [
    "Verif.Props.C17_private_roundtrip"
   ],
   "note": "Valid: D fits the field size and the public half is D*G on the curve; C50 shows generated keys with D != 0 are valid."
  },
  {
   "property": "C18",
   "status": "partial",
   "theorems": [
    "Verif.Props.C18_public_no_panic",
    "Verif.Props.C18_private_panics_iff_partial"
   ],
   "note": "False of the code for private keys: exact set of panicking inputs proved."
  },
  {
   "property": "C19",
   "status": "partial",
   "theorems": [
    "Verif.Props.C19_nil_key_iff_partial"
   ],
   "note": "False of the code: exact set of inputs giving (nil, nil) proved."
  },
  {
   "property": "C20",
   "status": "partial",
   "theorems": [
    "Verif.Props.C20_compare_partial",
    "Verif.Props.C20_opposite_keys_compare_equal"
   ],
   "note": "False of the code for EC keys (Y ignored): exact characterisation and negation proved."
  },
  {
   "property": "C21",
   "status": "proved",
   "theorems": [
    "Verif.Props.C21_findKey"
   ],
   "note": ""
  },
  {
   "property": "C22",
   "status": "proved",
   "theorems": [
    "Verif.Props.C22_sorted",
    "Verif.Props.C22_canonical"
   ],
   "note": "sort.Sort is a parameter with its contract, instantiated by insertion sort."
  },
  {
   "property": "C23",
   "status": "proved",
   "theorems": [
    "Verif.Props.C23_labels",
    "Verif.Props.C23_names",
    "Verif.Props.C23_long_s_accepted"
   ],
   "note": ""
  },
  {
   "property": "C24",
   "status": "proved",
   "theorems": [
    "Verif.Props.C24_wif_roundtrip"
   ],
   "note": "SHA-256 and base58 are parameters; the base58 package is written out and proved to meet the law."
  },
  {
   "property": "C25",
   "status": "partial",
   "theorems": [
    "Verif.Props.C25_wif_accepts_iff_partial",
    "Verif.Props.C25_version_unchecked"
   ],
   "note": "False of the code for the version and compression bytes: negation proved. Length and checksum part proved as an iff."
  },
  {
   "property": "C26",
   "status": "proved",
   "theorems": [
    "Verif.Props.C26_protect_roundtrip"
   ],
   "note": "scrypt and AES-GCM are parameters with stated laws."
  },
  {
   "property": "C27",
   "status": "partial",
   "theorems": [
    "Verif.Props.C27_gcm_accepts_iff_partial",
    "Verif.Props.C27_ctr_unauthenticated"
   ],
   "note": "GCM mode: accepted iff the ciphertext is a GCM sealing under the derived key and address (unforgeability itself is computational). Legacy CTR mode: negation proved."
  },
  {
   "property": "C28",
   "status": "partial",
   "theorems": [
    "Verif.Props.C28_password_iff_partial",
    "Verif.Props.C28_empty_password"
   ],
   "note": "False of the code for the empty password: negation proved; proved for all others."
  },
  {
   "property": "C29",
   "status": "proved",
   "theorems": [
    "Verif.Props.C29_reencrypt"
   ],
   "note": ""
  },
  {
   "property": "C30",
   "status": "partial",
   "theorems": [
    "Verif.Props.C30_roundtrip_partial",
    "Verif.Props.C30_nul_id_lost",
    "Verif.Props.C30_kept_iff"
   ],
   "note": "Proved for all schemes, keys and values except SM2 user ids with a zero byte, for which the negation is proved."
  },
  {
   "property": "C31",
   "status": "partial",
   "theorems": [
    "Verif.Props.C31_reserialize_partial",
    "Verif.Props.C31_dsa_panics"
   ],
   "note": "False of the code: Serialize panics on every deserialized (r, s) signature (proved); byte-string signatures reserialize exactly."
  },
  {
   "property": "C32",
   "status": "proved",
   "theorems": [
    "Verif.Props.C32_deserialize_format",
    "Verif.Props.C32_format_unique"
   ],
   "note": "Also characterises exactly which byte strings are accepted, and with which result."
  },
  {
   "property": "C33",
   "status": "partial",
   "theorems": [
    "Verif.Props.C33_sign_verify_partial"
   ],
   "note": "All key kinds, schemes, options; the two excluded cases are the counterexamples C59 and C60."
  },
  {
   "property": "C34",
   "status": "proved",
   "theorems": [
    "Verif.Props.C34_mismatch"
   ],
   "note": ""
  },
  {
   "property": "C35",
   "status": "partial",
   "theorems": [
    "Verif.Props.C35_no_panic_partial",
    "Verif.Props.C35_panics_iff",
    "Verif.Props.C35_short_eth_panics"
   ],
   "note": "False of the code: exact panic condition and a whole family of panicking inputs proved. That btcec does not panic is a hypothesis of C35_no_panic_partial; when it does is C153."
  },
  {
   "property": "C36",
   "status": "partial",
   "theorems": [
    "Verif.Props.C36_names_partial",
    "Verif.Props.C36_non_ascii_accepted",
    "Verif.Props.getScheme_iff"
   ],
   "note": "Bijection and case insensitivity proved; 'every other string is an error' proved for ASCII strings, refuted by U+017F."
  },
  {
   "property": "C37",
   "status": "partial",
   "theorems": [
    "Verif.Props.C37_convert",
    "Verif.Props.C37_input_kept_partial",
    "Verif.Props.C37_input_overwritten"
   ],
   "note": "Exact result proved; 'input unchanged' false for the ECDSA schemes (proved), true for the others."
  },
  {
   "property": "C38",
   "status": "proved",
   "theorems": [
    "Verif.Props.C38_sign_verify"
   ],
   "note": ""
  },
  {
   "property": "C39",
   "status": "partial",
   "theorems": [
    "Verif.Props.C39_verify_iff",
    "Verif.Props.C39_other_curve",
    "Verif.Props.C39_verify_standard_partial",
    "Verif.Props.C39_standard_signature_rejected"
   ],
   "note": "Equivalence with the standard's check proved for the digest the code computes and every key on the curve; the digest itself is the standard's only for keys whose coordinates have no leading zero byte, and a standard signature that is rejected is exhibited."
  },
  {
   "property": "C40",
   "status": "partial",
   "theorems": [
    "Verif.Props.C40_sign_values",
    "Verif.Props.C40_terminates_iff_partial",
    "Verif.Props.C40_minus_one_diverges"
   ],
   "note": "Ranges and exact termination condition proved; false of the code for the private key n-1, proved to diverge."
  },
  {
   "property": "C41",
   "status": "partial",
   "theorems": [
    "Verif.Props.C41_digest_partial",
    "Verif.Props.C41_short_coordinate"
   ],
   "note": "False of the code for keys with a leading zero byte in a coordinate: negation proved with a witness."
  },
  {
   "property": "C42",
   "status": "partial",
   "theorems": [
    "Verif.Props.C42_roundtrip_partial",
    "Verif.Props.C42_stale_bytes"
   ],
   "note": "Holds unless a discarded nonce has a longer coordinate; failing witness proved."
  },
  {
   "property": "C43",
   "status": "partial",
   "theorems": [
    "Verif.Props.C43_panics_iff",
    "Verif.Props.C43_accepts_iff",
    "Verif.Props.C43_accepts_iff_partial",
    "Verif.Props.C43_unreduced_accepted",
    "Verif.Props.C43_plaintext_with_error"
   ],
   "note": "Exact panic condition and exact accepted set, which contains altered ciphertexts if IsOnCurve accepts unreduced coordinates; plaintext is returned with the error, proved for every ciphertext."
  },
  {
   "property": "C44",
   "status": "proved",
   "theorems": [
    "Verif.Props.C44_kdf",
    "Verif.Props.C44_kdf_length"
   ],
   "note": ""
  },
  {
   "property": "C45",
   "status": "proved",
   "theorems": [
    "Verif.Props.C45_complete"
   ],
   "note": "Curve methods and SHA-2 are parameters with stated laws; SM3 is the modelled one. elliptic.Marshal as in Go before 1.19."
  },
  {
   "property": "C46",
   "status": "proved",
   "theorems": [
    "Verif.Props.C46_value",
    "Verif.Props.C46_deterministic"
   ],
   "note": ""
  },
  {
   "property": "C47",
   "status": "proved",
   "theorems": [
    "Verif.Props.C47_verify_iff",
    "Verif.Props.C47_special_soundness"
   ],
   "note": "The acceptance set is characterised exactly; soundness beyond special soundness rests on the random oracle and is not expressed."
  },
  {
   "property": "C48",
   "status": "partial",
   "theorems": [
    "Verif.Props.C48_overwrites",
    "Verif.Props.C48_overwritten_witness",
    "Verif.Props.C48_frame_partial"
   ],
   "note": "False of the code: Verify with a proof from Vrf overwrites the value that Vrf returned (proved for every key). Exact frame proved."
  },
  {
   "property": "C49",
   "status": "proved",
   "theorems": [
    "Verif.Props.C49_challenge_range",
    "Verif.Props.C49_proof_range"
   ],
   "note": ""
  },
  {
   "property": "C50",
   "status": "partial",
   "theorems": [
    "Verif.Props.C50_generated_partial",
    "Verif.Props.C50_zero_key_possible",
    "Verif.Props.C50_ethereum"
   ],
   "note": "False of the code: D = 0 can be generated for EC keys. Everything else proved on all six curves; Ethereum keys are in range."
  },
  {
   "property": "C51",
   "status": "proved",
   "theorems": [
    "Verif.Props.C51_sm2_curve_sound",
    "Verif.Props.C51_initP256"
   ],
   "note": ""
  },
  {
   "property": "C52",
   "status": "proved",
   "theorems": [
    "Verif.Props.C52_mul",
    "Verif.Props.C52_sqr",
    "Verif.Props.C52_fromMont",
    "Verif.Props.C52_mulInternal",
    "Verif.Props.C52_sqrInternal"
   ],
   "note": "Every instruction of the routines, from an arbitrary machine state, any aliasing of the arguments."
  },
  {
   "property": "C53",
   "status": "proved",
   "theorems": [
    "Verif.Props.C53_ordMul"
   ],
   "note": "Every instruction of the routine, from an arbitrary machine state."
  },
  {
   "property": "C54",
   "status": "proved",
   "theorems": [
    "Verif.Props.C54_inverse",
    "Verif.Props.C54_inverse_zero",
    "Verif.Props.C54_field_inverse",
    "Verif.Props.C54_field_inverse_zero",
    "Verif.Props.C54_ordSqr_wrong",
    "Verif.Props.C54_ordSqr_product"
   ],
   "note": "Inverse(k) inverts |k|; that is what its caller needs, k is positive there. The assembly squaring routine, which Inverse does not call, is wrong (C54_ordSqr_wrong)."
  },
  {
   "property": "C55",
   "status": "proved",
   "theorems": [
    "Verif.Props.C55_booth5",
    "Verif.Props.C55_booth5_range",
    "Verif.Props.C55_booth7",
    "Verif.Props.C55_booth7_range"
   ],
   "note": ""
  },
  {
   "property": "C56",
   "status": "partial",
   "theorems": [
    "Verif.Props.C56_sub_partial",
    "Verif.Props.C56_unreduced",
    "Verif.Props.C56_wrong"
   ],
   "note": "False as stated: refuted by concrete operands. Proved: the exact condition for full reduction and the right residue when b <= a+p."
  },
  {
   "property": "C57",
   "status": "partial",
   "theorems": [
    "Verif.Props.C57_scalarMult_partial",
    "Verif.Props.C57_wrong_scalar",
    "Verif.Props.C57_wrong_point",
    "Verif.Props.C57_not_lawful"
   ],
   "note": "False as stated (refuted by a scalar and by a point). Proved: exact result for every point and scalar whose run does not depend on an inexact field operation; exactness is decidable per input."
  },
  {
   "property": "C58",
   "status": "proved",
   "theorems": [
    "Verif.Props.C58_once_safe",
    "Verif.Props.C58_once_progress",
    "Verif.Props.C58_once_terminates"
   ],
   "note": "sync.Once is written out as its fast path, mutex and deferred store; memory is sequentially consistent."
  },
  {
   "property": "C59",
   "status": "partial",
   "theorems": [
    "Verif.Props.C59_empty_message"
   ],
   "note": "False of the code: Verify rejects every signature on the empty message, although Sign makes them (proved for every Ed25519 key)."
  },
  {
   "property": "C60",
   "status": "partial",
   "theorems": [
    "Verif.Props.C60_eth_digest_partial",
    "Verif.Props.C60_hashed_32_bytes_rejected"
   ],
   "note": "False of the code for 32-byte messages with the hash option (witness), proved for all others."
  },
  {
   "property": "C61",
   "status": "partial",
   "theorems": [
    "Verif.Props.C61_lucas_partial",
    "Verif.Props.C61_even_U_wrong"
   ],
   "note": "False of the code for the U component at even index; proved for V and for odd index."
  },
  {
   "property": "C62",
   "status": "proved",
   "theorems": [
    "Verif.Props.C62_parsed_consistent"
   ],
   "note": ""
  },
  {
   "property": "C63",
   "status": "partial",
   "theorems": [
    "Verif.Props.C63_out_of_range_accepted",
    "Verif.Props.C63_ethereum_in_range_partial",
    "Verif.Props.C63_scalars_iff"
   ],
   "note": "False of the code for EC keys: negation proved; proved for Ethereum keys; C63_scalars_iff: the EC scalars accepted are exactly those below 256^size, zero included."
  },
  {
   "property": "C64",
   "status": "partial",
   "theorems": [
    "Verif.Props.C64_two_encodings",
    "Verif.Props.C64_canonical_partial",
    "Verif.Props.C64_encodings"
   ],
   "note": "False of the code for P-256 keys: negation proved; proved for Ed25519 and Ethereum keys; C64_encodings gives the exact set of byte strings that parse to a given key."
  },
  {
   "property": "C65",
   "status": "partial",
   "theorems": [
    "Verif.Props.C65_wif_panics_iff_partial",
    "Verif.Props.C65_short_wif_panics"
   ],
   "note": "False of the code: exact set of panicking inputs and witness; agreement with WIF2Key proved."
  },
  {
   "property": "C66",
   "status": "partial",
   "theorems": [
    "Verif.Props.C66_metadata_unauthenticated",
    "Verif.Props.C66_metadata_recorded_partial"
   ],
   "note": "False of the code: negation proved for every SM2 key."
  },
  {
   "property": "C67",
   "status": "proved",
   "theorems": [
    "Verif.Props.C67_nonce_key_parts",
    "Verif.Props.C67_encrypt",
    "Verif.Props.C67_default"
   ],
   "note": ""
  },
  {
   "property": "C68",
   "status": "partial",
   "theorems": [
    "Verif.Props.C68_encrypt_panics_iff_partial"
   ],
   "note": "False of the code for Ethereum keys: exact characterisation proved."
  },
  {
   "property": "C69",
   "status": "partial",
   "theorems": [
    "Verif.Props.C69_cipher_standard_partial",
    "Verif.Props.C69_encrypt_standard_partial",
    "Verif.Props.C69_standard_ciphertext_rejected"
   ],
   "note": "False of the code when y2 has a leading zero byte: witness proved."
  },
  {
   "property": "C70",
   "status": "partial",
   "theorems": [
    "Verif.Props.C70_encrypt_returns_iff_partial",
    "Verif.Props.C70_empty_message_diverges"
   ],
   "note": "Exact condition; false of the code for the empty message."
  },
  {
   "property": "C71",
   "status": "partial",
   "theorems": [
    "Verif.Props.C71_transported_partial"
   ],
   "note": "Under the exceptions of C30 and C33."
  },
  {
   "property": "C72",
   "status": "proved",
   "theorems": [
    "Verif.Props.C72_ecdsa_standard",
    "Verif.Props.C72_compact_sound"
   ],
   "note": ""
  },
  {
   "property": "C73",
   "status": "proved",
   "theorems": [
    "Verif.Props.C73_supported_keys"
   ],
   "note": ""
  },
  {
   "property": "C74",
   "status": "proved",
   "theorems": [
    "Verif.Props.C74_vrf_panics_iff",
    "Verif.Props.C74_verify_panics_iff"
   ],
   "note": ""
  },
  {
   "property": "C75",
   "status": "proved",
   "theorems": [
    "Verif.Props.C75_parsed_public"
   ],
   "note": ""
  },
  {
   "property": "C76",
   "status": "proved",
   "theorems": [
    "Verif.Props.C76_generated_kind",
    "Verif.Props.C76_refused"
   ],
   "note": ""
  },
  {
   "property": "C77",
   "status": "partial",
   "theorems": [
    "Verif.Props.C77_encode_shape_partial",
    "Verif.Props.C77_oversize_collides"
   ],
   "note": "False as stated for oversize coordinates (refuted). Proved: exact panic condition, length and tag."
  },
  {
   "property": "C78",
   "status": "proved",
   "theorems": [
    "Verif.Props.C78_bytes"
   ],
   "note": "One routine: the second name is a jump to the first."
  },
  {
   "property": "C79",
   "status": "partial",
   "theorems": [
    "Verif.Props.C79_pointAdd_partial",
    "Verif.Props.C79_wrong"
   ],
   "note": "False as stated: refuted for equal points and for infinity. Proved for all other points when the run does not depend on an inexact operation."
  },
  {
   "property": "C80",
   "status": "partial",
   "theorems": [
    "Verif.Props.C80_pointDouble_partial",
    "Verif.Props.C80_wrong"
   ],
   "note": "False as stated: refuted by a point. Proved for all points when the run does not depend on an inexact operation."
  },
  {
   "property": "C81",
   "status": "partial",
   "theorems": [
    "Verif.Props.C81_pointAddAffine_partial",
    "Verif.Props.C81_wrong"
   ],
   "note": "False as stated: refuted for equal points and for infinity. Proved for all other points when the run does not depend on an inexact operation."
  },
  {
   "property": "C82",
   "status": "proved",
   "theorems": [
    "Verif.Props.C82_movCond",
    "Verif.Props.C82_select",
    "Verif.Props.C82_selectBase"
   ],
   "note": ""
  },
  {
   "property": "C83",
   "status": "partial",
   "theorems": [
    "Verif.Props.C83_scalarBaseMult_partial"
   ],
   "note": "Missing: runs that depend on an inexact operation."
  },
  {
   "property": "C84",
   "status": "partial",
   "theorems": [
    "Verif.Props.C84_combinedMult_partial",
    "Verif.Props.C84_wrong"
   ],
   "note": "False as stated (refuted). Proved: exact result when s is not 0 modulo the order and the run is exact."
  },
  {
   "property": "C85",
   "status": "partial",
   "theorems": [
    "Verif.Props.C85_verify_amd64_partial",
    "Verif.Props.C85_rejects_valid"
   ],
   "note": "False as stated: a valid signature is rejected. Proved: equivalence apart from two exceptions, for exact runs."
  },
  {
   "property": "C86",
   "status": "partial",
   "theorems": [
    "Verif.Props.C86_sign_amd64_partial",
    "Verif.Props.C86_sign_verify_amd64_partial"
   ],
   "note": "Missing: inexact runs and the exceptions of C85."
  },
  {
   "property": "C87",
   "status": "proved",
   "theorems": [
    "Verif.Props.C87_bytes",
    "Verif.Props.C87_movCond",
    "Verif.Props.C87_negCond",
    "Verif.Props.C87_sqr",
    "Verif.Props.C87_mul",
    "Verif.Props.C87_fromMont",
    "Verif.Props.C87_ordMul",
    "Verif.Props.C87_pointAddAffine",
    "Verif.Props.C87_pointAdd",
    "Verif.Props.C87_pointDouble",
    "Verif.Props.C87_select",
    "Verif.Props.C87_selectBase"
   ],
   "note": ""
  },
  {
   "property": "C88",
   "status": "proved",
   "theorems": [
    "Verif.Props.C88_scalarMult",
    "Verif.Props.C88_scalarBaseMult",
    "Verif.Props.C88_combinedMult",
    "Verif.Props.C88_inverse"
   ],
   "note": ""
  },
  {
   "property": "C89",
   "status": "proved",
   "theorems": [
    "Verif.Props.C89_concurrent",
    "Verif.Props.C89_inverse",
    "Verif.Props.C89_scalarMult_partial",
    "Verif.Props.C89_scalarBaseMult_partial"
   ],
   "note": "C89_concurrent is the property. The other theorems restate it in terms of numbers and the group; those about the group miss what C57 and C83 miss."
  },
  {
   "property": "C90",
   "status": "proved",
   "theorems": [
    "Verif.Props.C90_returns"
   ],
   "note": ""
  },
  {
   "property": "C91",
   "status": "proved",
   "theorems": [
    "Verif.Props.C91_scalarMult",
    "Verif.Props.C91_scalarBaseMult",
    "Verif.Props.C91_combinedMult",
    "Verif.Props.C91_inverse",
    "Verif.Props.C91_exists"
   ],
   "note": ""
  },
  {
   "property": "C92",
   "status": "partial",
   "theorems": [
    "Verif.Props.C92_input",
    "Verif.Props.C92_binding_partial",
    "Verif.Props.C92_boundary"
   ],
   "note": "False as stated: the boundary between the coordinates is not bound (witness off the curve). Proved: message, id and the concatenated coordinates are bound; the key too when x has full length."
  },
  {
   "property": "C93",
   "status": "proved",
   "theorems": [
    "Verif.Props.C93_nonce"
   ],
   "note": ""
  },
  {
   "property": "C94",
   "status": "proved",
   "theorems": [
    "Verif.Props.C94_nonce_count"
   ],
   "note": ""
  },
  {
   "property": "C95",
   "status": "partial",
   "theorems": [
    "Verif.Props.C95_canonical_partial",
    "Verif.Props.C95_padded"
   ],
   "note": "False as stated for pairs of numbers: refuted for each of them. Proved for equal lengths and for byte-string values."
  },
  {
   "property": "C96",
   "status": "partial",
   "theorems": [
    "Verif.Props.C96_sm2_partial",
    "Verif.Props.C96_sm2_minus",
    "Verif.Props.C96_ecdsa_negated",
    "Verif.Props.C96_eth_tail",
    "Verif.Props.C96_compact_flag",
    "Verif.Props.C96_compact_negated"
   ],
   "note": "False as stated for ECDSA, compact signatures and Ethereum keys. For SM2 proved for signatures with equal r; the exception in it, the private key n - 1, is real: C96_sm2_minus."
  },
  {
   "property": "C97",
   "status": "partial",
   "theorems": [
    "Verif.Props.C97_sm2",
    "Verif.Props.C97_ecdsa_partial",
    "Verif.Props.C97_ecdsa_two_messages",
    "Verif.Props.C97_eth_two_messages",
    "Verif.Props.C97_compact"
   ],
   "note": "Proved for SM2, and for compact secp256k1 signatures given that key recovery finds its point in the signature alone; false as stated for other ECDSA signatures and Ethereum keys."
  },
  {
   "property": "C98",
   "status": "proved",
   "theorems": [
    "Verif.Props.C98_public",
    "Verif.Props.C98_public_refines"
   ],
   "note": ""
  },
  {
   "property": "C99",
   "status": "partial",
   "theorems": [
    "Verif.Props.C99_private_partial",
    "Verif.Props.C99_private_refines",
    "Verif.Props.C99_ed25519_shared",
    "Verif.Props.C99_signature_partial",
    "Verif.Props.C99_compact_shared"
   ],
   "note": "False as stated for Ed25519 private keys and compact ECDSA signatures: refuted for each of them. Proved for all other."
  },
  {
   "property": "C100",
   "status": "proved",
   "theorems": [
    "Verif.Props.C100_sign",
    "Verif.Props.C100_verify",
    "Verif.Props.C100_reset"
   ],
   "note": ""
  },
  {
   "property": "C101",
   "status": "proved",
   "theorems": [
    "Verif.Props.C101_nonce"
   ],
   "note": ""
  },
  {
   "property": "C102",
   "status": "proved",
   "theorems": [
    "Verif.Props.C102_ec_uniform",
    "Verif.Props.C102_ethereum_count",
    "Verif.Props.C102_ed25519"
   ],
   "note": ""
  },
  {
   "property": "C103",
   "status": "partial",
   "theorems": [
    "Verif.Props.C103_storage",
    "Verif.Props.C103_sign_verify_partial"
   ],
   "note": "Storage is proved for every generated key with a scalar other than 0 (C50); signing and verifying except for the empty message, Ethereum with a 32-byte message and the prehash option, and SM2 ids with zero bytes, where C59, C60 and C30 refute it"
  },
  {
   "property": "C104",
   "status": "proved",
   "theorems": [
    "Verif.Props.C104_index",
    "Verif.Props.C104_proofToHash_iff",
    "Verif.Props.C104_mismatch",
    "Verif.Props.C104_history"
   ],
   "note": ""
  },
  {
   "property": "C105",
   "status": "proved",
   "theorems": [
    "Verif.Props.C105_shared_cipher",
    "Verif.Props.C105_short",
    "Verif.Props.C105_frame"
   ],
   "note": ""
  },
  {
   "property": "C106",
   "status": "partial",
   "theorems": [
    "Verif.Props.C106_generate_partial",
    "Verif.Props.C106_generate_ok_iff",
    "Verif.Props.C106_generate_typed_nil",
    "Verif.Props.C106_generate_unusable",
    "Verif.Props.C106_parse_partial",
    "Verif.Props.C106_p224_panics",
    "Verif.Props.C106_sm2_sign",
    "Verif.Props.C106_sign",
    "Verif.Props.C106_sm2_encrypt",
    "Verif.Props.C106_protect",
    "Verif.Props.C106_vrf"
   ],
   "note": "False of the code in two respects, both proved: with its error GenerateKeyPair returns interface values that hold nil pointers and are not equal to nil (C106_generate_typed_nil); parsing a compressed P-224 key panics when rand.Prime fails, as its error is dropped (C106_p224_panics). Everything else is proved for every history of reads. ecdsa.Sign of the standard library is external."
  },
  {
   "property": "C107",
   "status": "partial",
   "theorems": [
    "Verif.Props.C107_roundtrip_partial",
    "Verif.Props.C107_stored_partial",
    "Verif.Props.C107_not_text",
    "Verif.Props.C107_stored_not_text",
    "Verif.Props.C107_format",
    "Verif.Props.C107_scrypt",
    "Verif.Props.C107_read",
    "Verif.Props.C107_scrypt_read",
    "Verif.Props.C107_parameters"
   ],
   "note": "Proved for all strings that are UTF-8. False of the code for addresses that are not UTF-8: encoding/json replaces the bad bytes, so the address comes back changed, and decryption then needs a GCM forgery (C107_stored_not_text, for every such address)."
  },
  {
   "property": "C108",
   "status": "proved",
   "theorems": [
    "Verif.Props.C108_keys_kept",
    "Verif.Props.C108_returns",
    "Verif.Props.C108_canonical",
    "Verif.Props.C108_unknown_type",
    "Verif.Props.C108_unknown_curve"
   ],
   "note": "sort.Sort is any program of calls of Less and Swap that meets the contract of package sort."
  },
  {
   "property": "C109",
   "status": "proved",
   "theorems": [
    "Verif.Props.C109_accepted_iff_made",
    "Verif.Props.C109_one_nonce",
    "Verif.Props.C109_one_signature",
    "Verif.Props.C109_sign"
   ],
   "note": "Private keys of the standard's range; for the key n-1 see C40."
  },
  {
   "property": "C110",
   "status": "proved",
   "theorems": [
    "Verif.Props.C110_wrong_value"
   ],
   "note": "Unpredictability of the hash itself is computational."
  },
  {
   "property": "C111",
   "status": "partial",
   "theorems": [
    "Verif.Props.C111_accepted_is_made_partial",
    "Verif.Props.C111_made_is_accepted",
    "Verif.Props.C111_altered_proof"
   ],
   "note": "False of the code: the second half of a proof counts modulo the group order, so proofs with a small second half can be altered (proved). Exact up to that; the random number 0, which GenerateKey does not return, is included."
  },
  {
   "property": "C112",
   "status": "partial",
   "theorems": [
    "Verif.Props.C112_private_encodings",
    "Verif.Props.C112_second_encoding",
    "Verif.Props.C112_canonical_partial"
   ],
   "note": "False of the code for EC keys: a second encoding exists (C112_second_encoding) and C112_private_encodings gives the exact set. Canonical for Ed25519 and Ethereum keys."
  },
  {
   "property": "C113",
   "status": "proved",
   "theorems": [
    "Verif.Props.C113_sign_result",
    "Verif.Props.C113_sign_panics_iff",
    "Verif.Props.C113_verify_panics_iff",
    "Verif.Props.C113_serialize",
    "Verif.Props.C113_label_ignored"
   ],
   "note": "The exact panic conditions of Sign, Verify and Serialize for all arguments. Numbers and pointers in hand-made values are not nil."
  },
  {
   "property": "C114",
   "status": "proved",
   "theorems": [
    "Verif.Props.C114_group",
    "Verif.Props.C114_onCurve",
    "Verif.Props.C114_unreduced",
    "Verif.Props.C114_contract",
    "Verif.Props.C114_sm2",
    "Verif.Props.C114_sign_verify",
    "Verif.Props.C114_same_signature",
    "Verif.Props.C114_same_verdict",
    "Verif.Props.C114_vrf"
   ],
   "note": "For elliptic.CurveParams as in the Go releases of the time, transcribed from the standard library, which is not in the repository."
  },
  {
   "property": "C115",
   "status": "partial",
   "theorems": [
    "Verif.Props.C115_generated_partial",
    "Verif.Props.C115_parsed_partial",
    "Verif.Props.C115_ethereum_public"
   ],
   "note": "False of the code for every Ethereum key (C115_ethereum_public). Holds for the other types; parsed Ed25519 keys longer than 64 bytes give bytes 32 to 63."
  },
  {
   "property": "C116",
   "status": "partial",
   "theorems": [
    "Verif.Props.C116_get_iff",
    "Verif.Props.C116_from_partial",
    "Verif.Props.C116_kept_iff",
    "Verif.Props.C116_other_curve"
   ],
   "note": "False of the code: FromEthereumPrivateKey refuses nothing (C116_other_curve); C116_kept_iff gives the exact set of keys that survive serialization."
  },
  {
   "property": "C117",
   "status": "proved",
   "theorems": [
    "Verif.Props.C117_key_type"
   ],
   "note": ""
  },
  {
   "property": "C118",
   "status": "proved",
   "theorems": [
    "Verif.Props.C118_history",
    "Verif.Props.C118_sum",
    "Verif.Props.C118_overwritten"
   ],
   "note": ""
  },
  {
   "property": "C119",
   "status": "proved",
   "theorems": [
    "Verif.Props.C119_complete",
    "Verif.Props.C119_verify",
    "Verif.Props.C119_serialize"
   ],
   "note": ""
  },
  {
   "property": "C120",
   "status": "partial",
   "theorems": [
    "Verif.Props.C120_decrypt_partial",
    "Verif.Props.C120_encrypt_partial",
    "Verif.Props.C120_roundtrip_fails",
    "Verif.Props.C120_vrf_partial",
    "Verif.Props.C120_verify_partial",
    "Verif.Props.C120_vrf_key"
   ],
   "note": "The exact outcome of Decrypt, Encrypt, Vrf and Verify in exact runs, for all keys, inputs and scalars: that of correct curve methods which take scalars congruent to n-6 for 0, hence that of a correct implementation if no scalar is congruent to n-6. False for the private key n-6: C120_roundtrip_fails, C120_vrf_key. Missing: runs that depend on an inexact operation (C57)."
  },
  {
   "property": "C121",
   "status": "partial",
   "theorems": [
    "Verif.Props.C121_generate_partial",
    "Verif.Props.C121_construct_partial",
    "Verif.Props.C121_parse_partial",
    "Verif.Props.C121_decrypt_partial"
   ],
   "note": "Proved for all inputs in exact runs. Missing: SM2 scalars whose multiplication depends on an inexact operation (C83)."
  },
  {
   "property": "C122",
   "status": "proved",
   "theorems": [
    "Verif.Props.C122_right",
    "Verif.Props.C122_unchanged",
    "Verif.Props.C122_no_race",
    "Verif.Props.C122_finishes"
   ],
   "note": "The curve methods, crypto/rand and the hash objects are parameters: a curve method reads its arguments and returns new numbers (part of the claim for the SM2 curve on amd64), and each goroutine has its own hash object and random source. Memory is sequentially consistent, which C122_no_race justifies."
  },
  {
   "property": "C123",
   "status": "proved",
   "theorems": [
    "Verif.Props.C123_collision"
   ],
   "note": "The collision is named: it is at a position of the two computations, found by going back from the end. That two such messages exist is shown by counting."
  },
  {
   "property": "C124",
   "status": "proved",
   "theorems": [
    "Verif.Props.C124_tag_binds",
    "Verif.Props.C124_tail_binds",
    "Verif.Props.C124_one_key"
   ],
   "note": "Reduction to SM3 collisions; both hashed strings are given by the theorem."
  },
  {
   "property": "C125",
   "status": "proved",
   "theorems": [
    "Verif.Props.C125_draws",
    "Verif.Props.C125_point",
    "Verif.Props.C125_supported",
    "Verif.Props.C125_public",
    "Verif.Props.C125_private"
   ],
   "note": "The count is over all numbers below P. The code draws them with rand.Prime, so only primes of full length occur; how the suitable numbers are distributed among those primes is not claimed."
  },
  {
   "property": "C126",
   "status": "partial",
   "theorems": [
    "Verif.Props.C126_accepted_partial",
    "Verif.Props.C126_long_accepted",
    "Verif.Props.C126_changed_accepted"
   ],
   "note": "The property is false of the code. Proved: the exact number of accepted strings of each length, and the negation for every string of 256 bytes or more and for every message of at least one block when the iv is changed."
  },
  {
   "property": "C127",
   "status": "proved",
   "theorems": [
    "Verif.Props.C127_right",
    "Verif.Props.C127_unchanged",
    "Verif.Props.C127_no_race",
    "Verif.Props.C127_finishes",
    "Verif.Props.C127_new",
    "Verif.Props.C127_halves"
   ],
   "note": "Same parameters and memory as C122. A goroutine can use what was there at the start and what its own calls returned; handing a new object to another goroutine is not modelled."
  },
  {
   "property": "C128",
   "status": "proved",
   "theorems": [
    "Verif.Props.C128_public",
    "Verif.Props.C128_private",
    "Verif.Props.C128_signature",
    "Verif.Props.C128_encrypt",
    "Verif.Props.C128_decrypt",
    "Verif.Props.C128_reencrypt",
    "Verif.Props.C128_independent"
   ],
   "note": "Passwords and addresses are byte strings in the model; scrypt, AES and big.Int functions of libraries return new slices by assumption."
  },
  {
   "property": "C129",
   "status": "partial",
   "theorems": [
    "Verif.Props.C129_key2wif",
    "Verif.Props.C129_key2wif_cleared_partial",
    "Verif.Props.C129_key2wif_left",
    "Verif.Props.C129_key2wif_refused",
    "Verif.Props.C129_wif2key_partial",
    "Verif.Props.C129_wif2key_left",
    "Verif.Props.C129_wif2key_typo",
    "Verif.Props.C129_getP256"
   ],
   "note": "False of the code: Key2WIF and, for texts with a wrong checksum or length, WIF2Key leave copies behind (C129_key2wif_left, C129_key2wif_refused, C129_wif2key_typo). Proved: nothing that was there changes, Key2WIF clears the serialization when it succeeds, WIF2Key clears all slices when it succeeds, GetP256KeyPairFromWIF on every path. Go strings, big integers and slices inside external functions are not modelled."
  },
  {
   "property": "C130",
   "status": "partial",
   "theorems": [
    "Verif.Props.C130_decrypt_partial",
    "Verif.Props.C130_encrypt_partial",
    "Verif.Props.C130_disclosed",
    "Verif.Props.C130_first_byte"
   ],
   "note": "False of the code: sm3kdf prints a line for each mask byte it looks at. C130_first_byte: a call whose output tells the first byte of the message. C130_decrypt_partial and C130_encrypt_partial: exactly what is printed for every input, and nothing on errors before the mask; C130_disclosed: what a reader of the output learns about the message. Missing: that nothing is printed."
  },
  {
   "property": "C131",
   "status": "proved",
   "theorems": [
    "Verif.Props.C131_encrypt",
    "Verif.Props.C131_decrypt",
    "Verif.Props.C131_sign",
    "Verif.Props.C131_verify",
    "Verif.Props.C131_later"
   ],
   "note": "The hash object given to Sign and Verify is a function here; its state is C100, its memory C118."
  },
  {
   "property": "C132",
   "status": "partial",
   "theorems": [
    "Verif.Props.C132_same",
    "Verif.Props.C132_count_partial",
    "Verif.Props.C132_key_fails",
    "Verif.Props.C132_key_first",
    "Verif.Props.C132_known_block",
    "Verif.Props.C132_known_key",
    "Verif.Props.C132_lines"
   ],
   "note": "False of the code: the table entries read by NewCipher tell the key, those read by Encrypt and Decrypt tell the key or the block. Proved: the number of reads is always 128, and what follows from the entries and from the cache lines."
  },
  {
   "property": "C133",
   "status": "partial",
   "theorems": [
    "Verif.Props.C133_answer_partial",
    "Verif.Props.C133_disclosed_fails"
   ],
   "note": "False of the code: the answers to 256 questions per block tell the length of the message and every sixteenth byte. Proved besides: one answer depends only on the last byte of the result and on the length."
  },
  {
   "property": "C134",
   "status": "partial",
   "theorems": [
    "Verif.Props.C134_known_fails",
    "Verif.Props.C134_repeated_fails",
    "Verif.Props.C134_sm2_partial",
    "Verif.Props.C134_ecdsa_partial"
   ],
   "note": "False of Vrf: two different proofs made with the same random number, or one proof with a known number, give the private key by a formula. Proved for SM2 and ECDSA signing: the nonces come from hashes of different strings."
  },
  {
   "property": "C135",
   "status": "partial",
   "theorems": [
    "Verif.Props.C135_transfer",
    "Verif.Props.C135_keys_partial",
    "Verif.Props.C135_second_key_fails",
    "Verif.Props.C135_eth_second_key_fails",
    "Verif.Props.C135_any_message",
    "Verif.Props.C135_compact",
    "Verif.Props.C135_sm2_partial"
   ],
   "note": "False for XwithECDSA and Ethereum keys: a second key under which a signature is accepted for the same message, and a key for every other message, are given by formulas. C135_transfer and C135_keys_partial: the exact set of keys up to two x-coordinates equal modulo the order. Proved for compact secp256k1 signatures. Missing for SM2: that nobody finds a key with a suitable hash value."
  },
  {
   "property": "C136",
   "status": "partial",
   "theorems": [
    "Verif.Props.C136_ecdsa_partial",
    "Verif.Props.C136_two_schemes_fails",
    "Verif.Props.C136_kinds",
    "Verif.Props.C136_compact"
   ],
   "note": "False for (r, s) pairs and two schemes named XwithECDSA. C136_ecdsa_partial: the cases in which it can happen. Proved for every other pair of schemes (C136_kinds) and for compact secp256k1 signatures (C136_compact)."
  },
  {
   "property": "C137",
   "status": "partial",
   "theorems": [
    "Verif.Props.C137_storage_partial",
    "Verif.Props.C137_sign_verify_partial"
   ],
   "note": "Missing: what is missing in C103 (there the property is false); SM2 keys and signatures for which the multiplications of sm2/p256_amd64.go are not exact, or meet the special cases of C86; keys on the SM2 curve used with ECDSA, which is external code."
  },
  {
   "property": "C138",
   "status": "proved",
   "theorems": [
    "Verif.Props.C138_equal_iff",
    "Verif.Props.C138_collision",
    "Verif.Props.C138_accepted",
    "Verif.Props.C138_separate"
   ],
   "note": ""
  },
  {
   "property": "C139",
   "status": "partial",
   "theorems": [
    "Verif.Props.C139_sm4_partial",
    "Verif.Props.C139_sm4_same",
    "Verif.Props.C139_sm4_fails",
    "Verif.Props.C139_aes_partial",
    "Verif.Props.C139_aes_fails",
    "Verif.Props.C139_padding"
   ],
   "note": "False for SM4 with a short dst and for AesEncrypt with an iv of the wrong length; the exact memory is proved for every case."
  },
  {
   "property": "C140",
   "status": "partial",
   "theorems": [
    "Verif.Props.C140_verify_fails",
    "Verif.Props.C140_ecdsa_fails",
    "Verif.Props.C140_encrypt_fails",
    "Verif.Props.C140_encrypt_amd64_fails",
    "Verif.Props.C140_verify_amd64_partial",
    "Verif.Props.C140_compressed_partial",
    "Verif.Props.C140_other_curve"
   ],
   "note": "False for the uncompressed keys (0, 0) and (x, 0); for SM2 on amd64 for encryption only; for ECDSA on P-384, P-521 and SM2 without assembly. For compressed bytes the key is a point of full order; that forging is hard there is a computational assumption and not a statement about the code."
  },
  {
   "property": "C141",
   "status": "proved",
   "theorems": [
    "Verif.Props.C141_hash",
    "Verif.Props.C141_verify",
    "Verif.Props.C141_sign",
    "Verif.Props.C141_assumptions",
    "Verif.Props.C141_portable"
   ],
   "note": ""
  },
  {
   "property": "C142",
   "status": "proved",
   "theorems": [
    "Verif.Props.C142_nonce",
    "Verif.Props.C142_count",
    "Verif.Props.C142_reuse"
   ],
   "note": "C142_reuse says why it matters: a nonce that was used for two digests tells the private key."
  },
  {
   "property": "C143",
   "status": "partial",
   "theorems": [
    "Verif.Props.C143_verify_partial",
    "Verif.Props.C143_sign_partial",
    "Verif.Props.C143_rejects_valid"
   ],
   "note": "The property is false of the code: C143_rejects_valid gives a valid signature that Verify rejects on amd64. C143_verify_partial: for a digest that is not 0 modulo the order and multiplications that do not depend on an inexact operation, Verify accepts exactly the valid signatures but those whose second scalar is the order minus 6 or whose two products are equal. C143_sign_partial: what Sign returns is valid if the multiplication by its nonce is exact."
  },
  {
   "property": "C144",
   "status": "proved",
   "theorems": [
    "Verif.Props.C144_forgery",
    "Verif.Props.C144_lawful"
   ],
   "note": "The block cipher and scrypt are parameters. C144_lawful: Seal and Open of GCM as written out meet what the other properties of protected keys assume."
  },
  {
   "property": "C145",
   "status": "partial",
   "theorems": [
    "Verif.Props.C145_body_partial",
    "Verif.Props.C145_length_fails",
    "Verif.Props.C145_same_salt_fails"
   ],
   "note": "The property is false of the code: scalars are encrypted without leading zeros, so the length of the record tells the number of zero bytes (C145_length_fails); with equal password and salt who knows one key gets the other (C145_same_salt_fails). C145_body_partial: otherwise the secret is covered by a keystream that depends on password, salt, parameters and length only."
  },
  {
   "property": "C146",
   "status": "proved",
   "theorems": [
    "Verif.Props.C146_sbox",
    "Verif.Props.C146_lawful",
    "Verif.Props.C146_roundtrip",
    "Verif.Props.C146_protected"
   ],
   "note": ""
  },
  {
   "property": "C147",
   "status": "partial",
   "theorems": [
    "Verif.Props.C147_length_partial",
    "Verif.Props.C147_repeated_iv_fails",
    "Verif.Props.C147_equal_blocks_fails"
   ],
   "note": "the length tells the number of whole blocks only; false of the contents when an iv is repeated or two ciphertext blocks are equal; indistinguishability otherwise is not stated"
  },
  {
   "property": "C148",
   "status": "partial",
   "theorems": [
    "Verif.Props.C148_collision_partial",
    "Verif.Props.C148_zeros_fails",
    "Verif.Props.C148_long_fails"
   ],
   "note": "The property is false of the code: zero bytes added to a password, or the digest in place of a long one, decrypt the same. Proved besides: apart from zeros at the end, two passwords of at most 64 bytes that derive the same key give two different strings with the same SHA-256 digest. That such strings, or GCM forgeries under another key, cannot be found is not a theorem."
  },
  {
   "property": "C149",
   "status": "partial",
   "theorems": [
    "Verif.Props.C149_accepted_partial",
    "Verif.Props.C149_panics_fails",
    "Verif.Props.C149_decrypt_fails"
   ],
   "note": "The property is false of the code: exact set of accepted and of panicking parameters proved."
  },
  {
   "property": "C150",
   "status": "proved",
   "theorems": [
    "Verif.Props.C150_lawful",
    "Verif.Props.C150_roundtrip"
   ],
   "note": ""
  },
  {
   "property": "C151",
   "status": "partial",
   "theorems": [
    "Verif.Props.C151_lawful",
    "Verif.Props.C151_form",
    "Verif.Props.C151_texts_partial",
    "Verif.Props.C151_ones_fails",
    "Verif.Props.C25_version_unchecked"
   ],
   "note": "The form of the exported texts is proved. That there is one text for a key is false of the code: C151_texts_partial gives the exact set of accepted texts."
  },
  {
   "property": "C152",
   "status": "proved",
   "theorems": [
    "Verif.Props.C152_accepts_iff",
    "Verif.Props.C152_sound",
    "Verif.Props.C152_lawful"
   ],
   "note": ""
  },
  {
   "property": "C153",
   "status": "partial",
   "theorems": [
    "Verif.Props.C153_panics_iff",
    "Verif.Props.C153_deserialized_fails",
    "Verif.Props.C153_no_panic_partial"
   ],
   "note": "False of the code: exact panic condition, witness from Deserialize, and no panic for other values of r."
  },
  {
   "property": "C154",
   "status": "proved",
   "theorems": [
    "Verif.Props.C154_recovers",
    "Verif.Props.C154_succeeds_iff",
    "Verif.Props.C154_sign_verify",
    "Verif.Props.C154_lawful"
   ],
   "note": ""
  },
  {
   "property": "C155",
   "status": "proved",
   "theorems": [
    "Verif.Props.C155_rfc6979",
    "Verif.Props.C155_sign"
   ],
   "note": "For nonces found within the given number of rounds; that one is found cannot be proved of SHA-256."
  },
  {
   "property": "C156",
   "status": "proved",
   "theorems": [
    "Verif.Props.C156_sign",
    "Verif.Props.C156_verify",
    "Verif.Props.C156_lawful"
   ],
   "note": "For the build of go-ethereum without cgo, transcribed from knowledge of its source; with cgo the C library is called and stays an assumption."
  }
 ]
}