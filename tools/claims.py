c("C01","proved","C01_sm3_sum_conforms C01_sm3_sum_length")
c("C02","proved","C02_sm3_history_refines C02_sm3_chunking")
c("C03","proved","C03_sm4_inverse C03_sm4_inverse_in_place")
c("C04","proved","C04_sm4_conforms")
c("C05","proved","C05_newCipher_iff C05_crypt_frame C05_short_panics","The bytes that are written before a panic with a short dst are in C139.")
c("C06","proved","C06_aes_roundtrip C06_unpad_pad C06_unpad_pad_256_fails C06_padding","crypto/aes is a parameter with stated laws, instantiated by SM4.")
c("C07","proved","C07_aesDecrypt_rejects")
c("C08","partial","C08_unpadding_partial C08_unpadding_accepts_malformed C08_unpadding_empty_panics","The property is false of the code: proved negation with witness, and exact characterisation of what is accepted.")
c("C09","partial","C09_caller_memory_partial C09_caller_memory_overwritten","The property is false of the code: proved negation with witness, and the exact frame.")
c("C10","proved","C10_compressed_roundtrip C10_supported_curves C10_two_torsion_fails","Generic theorem for any odd prime field, then the six supported curves. P-224 decoding finishes only once a suitable random draw occurs; the theorem says exactly when.")
c("C11","proved","C11_uncompressed_roundtrip")
c("C12","partial","C12_decoded_on_curve_partial C12_off_curve_accepted","False of the code for uncompressed encodings (the check is commented out): negation proved with a witness; proved for compressed encodings.")
c("C13","proved","C13_curveSqrt C13_zero_fails","0 is treated as a non-residue when P = 1 mod 4 (C13_zero_fails).")
c("C14","partial","C14_decode_injective_partial C14_trailing_bytes_accepted C14_unreduced_x_accepted C14_encodings","False of the code: trailing bytes are ignored. Injectivity proved for exact-length strings of one mode; C14_encodings gives the exact set of byte strings that decode to a given point.")
c("C61","partial","C61_lucas_partial C61_even_U_wrong","False of the code for the U component at even index; proved for V and for odd index.")

c("C51","proved","C51_sm2_curve_sound C51_initP256")
c("C58","proved","C58_once_safe C58_once_progress C58_once_terminates","sync.Once is written out as its fast path, mutex and deferred store; memory is sequentially consistent.")
c("C15","proved","C15_public_roundtrip","P-224 parsing finishes only once a suitable random draw occurs; the theorem says exactly when.")
c("C16","proved","C16_public_injective")
c("C17","proved","C17_private_roundtrip","Valid: D fits the field size and the public half is D*G on the curve; C50 shows generated keys with D != 0 are valid.")
c("C18","partial","C18_public_no_panic C18_private_panics_iff_partial","False of the code for private keys: exact set of panicking inputs proved.")
c("C19","partial","C19_nil_key_iff_partial","False of the code: exact set of inputs giving (nil, nil) proved.")
c("C20","partial","C20_compare_partial C20_opposite_keys_compare_equal","False of the code for EC keys (Y ignored): exact characterisation and negation proved.")
c("C21","proved","C21_findKey")
c("C22","proved","C22_sorted C22_canonical","sort.Sort is a parameter with its contract, instantiated by insertion sort.")
c("C23","proved","C23_labels C23_names C23_long_s_accepted")
c("C50","partial","C50_generated_partial C50_zero_key_possible C50_ethereum","False of the code: D = 0 can be generated for EC keys. Everything else proved on all six curves; Ethereum keys are in range.")
c("C62","proved","C62_parsed_consistent")
c("C63","partial","C63_out_of_range_accepted C63_ethereum_in_range_partial C63_scalars_iff","False of the code for EC keys: negation proved; proved for Ethereum keys; C63_scalars_iff: the EC scalars accepted are exactly those below 256^size, zero included.")
c("C64","partial","C64_two_encodings C64_canonical_partial C64_encodings","False of the code for P-256 keys: negation proved; proved for Ed25519 and Ethereum keys; C64_encodings gives the exact set of byte strings that parse to a given key.")
c("C24","proved","C24_wif_roundtrip","SHA-256 and base58 are parameters; the base58 package is written out and proved to meet the law.")
c("C25","partial","C25_wif_accepts_iff_partial C25_version_unchecked","False of the code for the version and compression bytes: negation proved. Length and checksum part proved as an iff.")
c("C26","proved","C26_protect_roundtrip","scrypt and AES-GCM are parameters with stated laws.")
c("C27","partial","C27_gcm_accepts_iff_partial C27_ctr_unauthenticated","GCM mode: accepted iff the ciphertext is a GCM sealing under the derived key and address (unforgeability itself is computational). Legacy CTR mode: negation proved.")
c("C28","partial","C28_password_iff_partial C28_empty_password","False of the code for the empty password: negation proved; proved for all others.")
c("C29","proved","C29_reencrypt")
c("C65","partial","C65_wif_panics_iff_partial C65_short_wif_panics","False of the code: exact set of panicking inputs and witness; agreement with WIF2Key proved.")
c("C66","partial","C66_metadata_unauthenticated C66_metadata_recorded_partial","False of the code: negation proved for every SM2 key.")
c("C67","proved","C67_nonce_key_parts C67_encrypt C67_default")
c("C68","partial","C68_encrypt_panics_iff_partial","False of the code for Ethereum keys: exact characterisation proved.")
c("C38","proved","C38_sign_verify")
c("C39","partial","C39_verify_iff C39_other_curve C39_verify_standard_partial C39_standard_signature_rejected","Equivalence with the standard's check proved for the digest the code computes and every key on the curve; the digest itself is the standard's only for keys whose coordinates have no leading zero byte, and a standard signature that is rejected is exhibited.")
c("C40","partial","C40_sign_values C40_terminates_iff_partial C40_minus_one_diverges","Ranges and exact termination condition proved; false of the code for the private key n-1, proved to diverge.")
c("C41","partial","C41_digest_partial C41_short_coordinate","False of the code for keys with a leading zero byte in a coordinate: negation proved with a witness.")
c("C42","partial","C42_roundtrip_partial C42_stale_bytes","Holds unless a discarded nonce has a longer coordinate; failing witness proved.")
c("C43","partial","C43_panics_iff C43_accepts_iff C43_accepts_iff_partial C43_unreduced_accepted C43_plaintext_with_error","Exact panic condition and exact accepted set, which contains altered ciphertexts if IsOnCurve accepts unreduced coordinates; plaintext is returned with the error, proved for every ciphertext.")
c("C44","proved","C44_kdf C44_kdf_length")
c("C69","partial","C69_cipher_standard_partial C69_encrypt_standard_partial C69_standard_ciphertext_rejected","False of the code when y2 has a leading zero byte: witness proved.")
c("C70","partial","C70_encrypt_returns_iff_partial C70_empty_message_diverges","Exact condition; false of the code for the empty message.")
c("C30","partial","C30_roundtrip_partial C30_nul_id_lost C30_kept_iff","Proved for all schemes, keys and values except SM2 user ids with a zero byte, for which the negation is proved.")
c("C31","partial","C31_reserialize_partial C31_dsa_panics","False of the code: Serialize panics on every deserialized (r, s) signature (proved); byte-string signatures reserialize exactly.")
c("C32","proved","C32_deserialize_format C32_format_unique","Also characterises exactly which byte strings are accepted, and with which result.")
c("C33","partial","C33_sign_verify_partial","All key kinds, schemes, options; the two excluded cases are the counterexamples C59 and C60.")
c("C34","proved","C34_mismatch")
c("C35","partial","C35_no_panic_partial C35_panics_iff C35_short_eth_panics","False of the code: exact panic condition and a whole family of panicking inputs proved. That btcec does not panic is a hypothesis of C35_no_panic_partial; when it does is C153.")
c("C36","partial","C36_names_partial C36_non_ascii_accepted getScheme_iff","Bijection and case insensitivity proved; 'every other string is an error' proved for ASCII strings, refuted by U+017F.")
c("C37","partial","C37_convert C37_input_kept_partial C37_input_overwritten","Exact result proved; 'input unchanged' false for the ECDSA schemes (proved), true for the others.")
c("C59","partial","C59_empty_message","False of the code: Verify rejects every signature on the empty message, although Sign makes them (proved for every Ed25519 key).")
c("C60","partial","C60_eth_digest_partial C60_hashed_32_bytes_rejected","False of the code for 32-byte messages with the hash option (witness), proved for all others.")
c("C71","partial","C71_transported_partial","Under the exceptions of C30 and C33.")
c("C72","proved","C72_ecdsa_standard C72_compact_sound")
c("C45","proved","C45_complete","Curve methods and SHA-2 are parameters with stated laws; SM3 is the modelled one. elliptic.Marshal as in Go before 1.19.")
c("C46","proved","C46_value C46_deterministic")
c("C47","proved","C47_verify_iff C47_special_soundness","The acceptance set is characterised exactly; soundness beyond special soundness rests on the random oracle and is not expressed.")
c("C48","partial","C48_overwrites C48_overwritten_witness C48_frame_partial","False of the code: Verify with a proof from Vrf overwrites the value that Vrf returned (proved for every key). Exact frame proved.")
c("C49","proved","C49_challenge_range C49_proof_range")
c("C73","proved","C73_supported_keys")
c("C74","proved","C74_vrf_panics_iff C74_verify_panics_iff")
c("C52","proved","C52_mul C52_sqr C52_fromMont C52_mulInternal C52_sqrInternal","Every instruction of the routines, from an arbitrary machine state, any aliasing of the arguments.")
c("C53","proved","C53_ordMul","Every instruction of the routine, from an arbitrary machine state.")
c("C56","partial","C56_sub_partial C56_unreduced C56_wrong","False as stated: refuted by concrete operands. Proved: the exact condition for full reduction and the right residue when b <= a+p.")
c("C75","proved","C75_parsed_public")
c("C76","proved","C76_generated_kind C76_refused")
c("C77","partial","C77_encode_shape_partial C77_oversize_collides","False as stated for oversize coordinates (refuted). Proved: exact panic condition, length and tag.")
c("C54","proved","C54_inverse C54_inverse_zero C54_field_inverse C54_field_inverse_zero C54_ordSqr_wrong C54_ordSqr_product","Inverse(k) inverts |k|; that is what its caller needs, k is positive there. The assembly squaring routine, which Inverse does not call, is wrong (C54_ordSqr_wrong).")
c("C55","proved","C55_booth5 C55_booth5_range C55_booth7 C55_booth7_range")
c("C57","partial","C57_scalarMult_partial C57_wrong_scalar C57_wrong_point C57_not_lawful","False as stated (refuted by a scalar and by a point). Proved: exact result for every point and scalar whose run does not depend on an inexact field operation; exactness is decidable per input.")
c("C78","proved","C78_bytes","One routine: the second name is a jump to the first.")
c("C79","partial","C79_pointAdd_partial C79_wrong","False as stated: refuted for equal points and for infinity. Proved for all other points when the run does not depend on an inexact operation.")
c("C80","partial","C80_pointDouble_partial C80_wrong","False as stated: refuted by a point. Proved for all points when the run does not depend on an inexact operation.")
c("C81","partial","C81_pointAddAffine_partial C81_wrong","False as stated: refuted for equal points and for infinity. Proved for all other points when the run does not depend on an inexact operation.")
c("C82","proved","C82_movCond C82_select C82_selectBase")
c("C83","partial","C83_scalarBaseMult_partial","Missing: runs that depend on an inexact operation.")
c("C84","partial","C84_combinedMult_partial C84_wrong","False as stated (refuted). Proved: exact result when s is not 0 modulo the order and the run is exact.")
c("C85","partial","C85_verify_amd64_partial C85_rejects_valid","False as stated: a valid signature is rejected. Proved: equivalence apart from two exceptions, for exact runs.")
c("C86","partial","C86_sign_amd64_partial C86_sign_verify_amd64_partial","Missing: inexact runs and the exceptions of C85.")
c("C87","proved","C87_bytes C87_movCond C87_negCond C87_sqr C87_mul C87_fromMont C87_ordMul C87_pointAddAffine C87_pointAdd C87_pointDouble C87_select C87_selectBase")
c("C88","proved","C88_scalarMult C88_scalarBaseMult C88_combinedMult C88_inverse")
c("C89","proved","C89_concurrent C89_inverse C89_scalarMult_partial C89_scalarBaseMult_partial","C89_concurrent is the property. The other theorems restate it in terms of numbers and the group; those about the group miss what C57 and C83 miss.")
c("C90","proved","C90_returns")
c("C91","proved","C91_scalarMult C91_scalarBaseMult C91_combinedMult C91_inverse C91_exists")
c("C92","partial","C92_input C92_binding_partial C92_boundary","False as stated: the boundary between the coordinates is not bound (witness off the curve). Proved: message, id and the concatenated coordinates are bound; the key too when x has full length.")
c("C93","proved","C93_nonce")
c("C94","proved","C94_nonce_count")
c("C95","partial","C95_canonical_partial C95_padded","False as stated for pairs of numbers: refuted for each of them. Proved for equal lengths and for byte-string values.")
c("C96","partial","C96_sm2_partial C96_sm2_minus C96_ecdsa_negated C96_eth_tail C96_compact_flag C96_compact_negated","False as stated for ECDSA, compact signatures and Ethereum keys. For SM2 proved for signatures with equal r; the exception in it, the private key n - 1, is real: C96_sm2_minus.")
c("C97","partial","C97_sm2 C97_ecdsa_partial C97_ecdsa_two_messages C97_eth_two_messages C97_compact","Proved for SM2, and for compact secp256k1 signatures given that key recovery finds its point in the signature alone; false as stated for other ECDSA signatures and Ethereum keys.")
c("C98","proved","C98_public C98_public_refines")
c("C99","partial","C99_private_partial C99_private_refines C99_ed25519_shared C99_signature_partial C99_compact_shared","False as stated for Ed25519 private keys and compact ECDSA signatures: refuted for each of them. Proved for all other.")
c("C100","proved","C100_sign C100_verify C100_reset")
c("C101","proved","C101_nonce")
c("C102","proved","C102_ec_uniform C102_ethereum_count C102_ed25519")
c("C103","partial","C103_storage C103_sign_verify_partial","Storage is proved for every generated key with a scalar other than 0 (C50); signing and verifying except for the empty message, Ethereum with a 32-byte message and the prehash option, and SM2 ids with zero bytes, where C59, C60 and C30 refute it")
c("C104","proved","C104_index C104_proofToHash_iff C104_mismatch C104_history")
c("C105","proved","C105_shared_cipher C105_short C105_frame")
c("C106","partial","C106_generate_partial C106_generate_ok_iff C106_generate_typed_nil C106_generate_unusable C106_parse_partial C106_p224_panics C106_sm2_sign C106_sign C106_sm2_encrypt C106_protect C106_vrf","False of the code in two respects, both proved: with its error GenerateKeyPair returns interface values that hold nil pointers and are not equal to nil (C106_generate_typed_nil); parsing a compressed P-224 key panics when rand.Prime fails, as its error is dropped (C106_p224_panics). Everything else is proved for every history of reads. ecdsa.Sign of the standard library is external.")
c("C107","partial","C107_roundtrip_partial C107_stored_partial C107_not_text C107_stored_not_text C107_format C107_scrypt C107_read C107_scrypt_read C107_parameters","Proved for all strings that are UTF-8. False of the code for addresses that are not UTF-8: encoding/json replaces the bad bytes, so the address comes back changed, and decryption then needs a GCM forgery (C107_stored_not_text, for every such address).")
c("C108","proved","C108_keys_kept C108_returns C108_canonical C108_unknown_type C108_unknown_curve","sort.Sort is any program of calls of Less and Swap that meets the contract of package sort.")
c("C109","proved","C109_accepted_iff_made C109_one_nonce C109_one_signature C109_sign","Private keys of the standard's range; for the key n-1 see C40.")
c("C110","proved","C110_wrong_value","Unpredictability of the hash itself is computational.")
c("C111","partial","C111_accepted_is_made_partial C111_made_is_accepted C111_altered_proof","False of the code: the second half of a proof counts modulo the group order, so proofs with a small second half can be altered (proved). Exact up to that; the random number 0, which GenerateKey does not return, is included.")
c("C112","partial","C112_private_encodings C112_second_encoding C112_canonical_partial","False of the code for EC keys: a second encoding exists (C112_second_encoding) and C112_private_encodings gives the exact set. Canonical for Ed25519 and Ethereum keys.")
c("C113","proved","C113_sign_result C113_sign_panics_iff C113_verify_panics_iff C113_serialize C113_label_ignored","The exact panic conditions of Sign, Verify and Serialize for all arguments. Numbers and pointers in hand-made values are not nil.")
c("C114","proved","C114_group C114_onCurve C114_unreduced C114_contract C114_sm2 C114_sign_verify C114_same_signature C114_same_verdict C114_vrf","For elliptic.CurveParams as in the Go releases of the time, transcribed from the standard library, which is not in the repository.")
c("C115","partial","C115_generated_partial C115_parsed_partial C115_ethereum_public","False of the code for every Ethereum key (C115_ethereum_public). Holds for the other types; parsed Ed25519 keys longer than 64 bytes give bytes 32 to 63.")
c("C116","partial","C116_get_iff C116_from_partial C116_kept_iff C116_other_curve","False of the code: FromEthereumPrivateKey refuses nothing (C116_other_curve); C116_kept_iff gives the exact set of keys that survive serialization.")
c("C117","proved","C117_key_type","")
c("C118","proved","C118_history C118_sum C118_overwritten","")
c("C119","proved","C119_complete C119_verify C119_serialize","")
c("C120","partial","C120_decrypt_partial C120_encrypt_partial C120_roundtrip_fails C120_vrf_partial C120_verify_partial C120_vrf_key","The exact outcome of Decrypt, Encrypt, Vrf and Verify in exact runs, for all keys, inputs and scalars: that of correct curve methods which take scalars congruent to n-6 for 0, hence that of a correct implementation if no scalar is congruent to n-6. False for the private key n-6: C120_roundtrip_fails, C120_vrf_key. Missing: runs that depend on an inexact operation (C57).")
c("C121","partial","C121_generate_partial C121_construct_partial C121_parse_partial C121_decrypt_partial","Proved for all inputs in exact runs. Missing: SM2 scalars whose multiplication depends on an inexact operation (C83).")
c("C122","proved","C122_right C122_unchanged C122_no_race C122_finishes","The curve methods, crypto/rand and the hash objects are parameters: a curve method reads its arguments and returns new numbers (part of the claim for the SM2 curve on amd64), and each goroutine has its own hash object and random source. Memory is sequentially consistent, which C122_no_race justifies.")
c("C123","proved","C123_collision","The collision is named: it is at a position of the two computations, found by going back from the end. That two such messages exist is shown by counting.")
c("C124","proved","C124_tag_binds C124_tail_binds C124_one_key","Reduction to SM3 collisions; both hashed strings are given by the theorem.")
c("C125","proved","C125_draws C125_point C125_supported C125_public C125_private","The count is over all numbers below P. The code draws them with rand.Prime, so only primes of full length occur; how the suitable numbers are distributed among those primes is not claimed.")
c("C126","partial","C126_accepted_partial C126_long_accepted C126_changed_accepted","The property is false of the code. Proved: the exact number of accepted strings of each length, and the negation for every string of 256 bytes or more and for every message of at least one block when the iv is changed.")
c("C127","proved","C127_right C127_unchanged C127_no_race C127_finishes C127_new C127_halves","Same parameters and memory as C122. A goroutine can use what was there at the start and what its own calls returned; handing a new object to another goroutine is not modelled.")
c("C128","proved","C128_public C128_private C128_signature C128_encrypt C128_decrypt C128_reencrypt C128_independent","Passwords and addresses are byte strings in the model; scrypt, AES and big.Int functions of libraries return new slices by assumption.")
c("C129","partial","C129_key2wif C129_key2wif_cleared_partial C129_key2wif_left C129_key2wif_refused C129_wif2key_partial C129_wif2key_left C129_wif2key_typo C129_getP256","False of the code: Key2WIF and, for texts with a wrong checksum or length, WIF2Key leave copies behind (C129_key2wif_left, C129_key2wif_refused, C129_wif2key_typo). Proved: nothing that was there changes, Key2WIF clears the serialization when it succeeds, WIF2Key clears all slices when it succeeds, GetP256KeyPairFromWIF on every path. Go strings, big integers and slices inside external functions are not modelled.")
c("C130","partial","C130_decrypt_partial C130_encrypt_partial C130_disclosed C130_first_byte","False of the code: sm3kdf prints a line for each mask byte it looks at. C130_first_byte: a call whose output tells the first byte of the message. C130_decrypt_partial and C130_encrypt_partial: exactly what is printed for every input, and nothing on errors before the mask; C130_disclosed: what a reader of the output learns about the message. Missing: that nothing is printed.")
c("C131","proved","C131_encrypt C131_decrypt C131_sign C131_verify C131_later","The hash object given to Sign and Verify is a function here; its state is C100, its memory C118.")
c("C132","partial","C132_same C132_count_partial C132_key_fails C132_key_first C132_known_block C132_known_key C132_lines","False of the code: the table entries read by NewCipher tell the key, those read by Encrypt and Decrypt tell the key or the block. Proved: the number of reads is always 128, and what follows from the entries and from the cache lines.")
c("C133","partial","C133_answer_partial C133_disclosed_fails","False of the code: the answers to 256 questions per block tell the length of the message and every sixteenth byte. Proved besides: one answer depends only on the last byte of the result and on the length.")
c("C134","partial","C134_known_fails C134_repeated_fails C134_sm2_partial C134_ecdsa_partial","False of Vrf: two different proofs made with the same random number, or one proof with a known number, give the private key by a formula. Proved for SM2 and ECDSA signing: the nonces come from hashes of different strings.")
c("C135","partial","C135_transfer C135_keys_partial C135_second_key_fails C135_eth_second_key_fails C135_any_message C135_compact C135_sm2_partial","False for XwithECDSA and Ethereum keys: a second key under which a signature is accepted for the same message, and a key for every other message, are given by formulas. C135_transfer and C135_keys_partial: the exact set of keys up to two x-coordinates equal modulo the order. Proved for compact secp256k1 signatures. Missing for SM2: that nobody finds a key with a suitable hash value.")
c("C136","partial","C136_ecdsa_partial C136_two_schemes_fails C136_kinds C136_compact","False for (r, s) pairs and two schemes named XwithECDSA. C136_ecdsa_partial: the cases in which it can happen. Proved for every other pair of schemes (C136_kinds) and for compact secp256k1 signatures (C136_compact).")
c("C137","partial","C137_storage_partial C137_sign_verify_partial","Missing: what is missing in C103 (there the property is false); SM2 keys and signatures for which the multiplications of sm2/p256_amd64.go are not exact, or meet the special cases of C86; keys on the SM2 curve used with ECDSA, which is external code.")
c("C138","proved","C138_equal_iff C138_collision C138_accepted C138_separate")
c("C139","partial","C139_sm4_partial C139_sm4_same C139_sm4_fails C139_aes_partial C139_aes_fails C139_padding","False for SM4 with a short dst and for AesEncrypt with an iv of the wrong length; the exact memory is proved for every case.")
c("C140","partial","C140_verify_fails C140_ecdsa_fails C140_encrypt_fails C140_encrypt_amd64_fails C140_verify_amd64_partial C140_compressed_partial C140_other_curve","False for the uncompressed keys (0, 0) and (x, 0); for SM2 on amd64 for encryption only; for ECDSA on P-384, P-521 and SM2 without assembly. For compressed bytes the key is a point of full order; that forging is hard there is a computational assumption and not a statement about the code.")
c("C141","proved","C141_hash C141_verify C141_sign C141_assumptions C141_portable","")
c("C142","proved","C142_nonce C142_count C142_reuse","C142_reuse says why it matters: a nonce that was used for two digests tells the private key.")
c("C143","partial","C143_verify_partial C143_sign_partial C143_rejects_valid","The property is false of the code: C143_rejects_valid gives a valid signature that Verify rejects on amd64. C143_verify_partial: for a digest that is not 0 modulo the order and multiplications that do not depend on an inexact operation, Verify accepts exactly the valid signatures but those whose second scalar is the order minus 6 or whose two products are equal. C143_sign_partial: what Sign returns is valid if the multiplication by its nonce is exact.")
c("C144","proved","C144_forgery C144_lawful","The block cipher and scrypt are parameters. C144_lawful: Seal and Open of GCM as written out meet what the other properties of protected keys assume.")
c("C145","partial","C145_body_partial C145_length_fails C145_same_salt_fails","The property is false of the code: scalars are encrypted without leading zeros, so the length of the record tells the number of zero bytes (C145_length_fails); with equal password and salt who knows one key gets the other (C145_same_salt_fails). C145_body_partial: otherwise the secret is covered by a keystream that depends on password, salt, parameters and length only.")
c("C146","proved","C146_sbox C146_lawful C146_roundtrip C146_protected","")
c("C147","partial","C147_length_partial C147_repeated_iv_fails C147_equal_blocks_fails","the length tells the number of whole blocks only; false of the contents when an iv is repeated or two ciphertext blocks are equal; indistinguishability otherwise is not stated")
c("C148","partial","C148_collision_partial C148_zeros_fails C148_long_fails","The property is false of the code: zero bytes added to a password, or the digest in place of a long one, decrypt the same. Proved besides: apart from zeros at the end, two passwords of at most 64 bytes that derive the same key give two different strings with the same SHA-256 digest. That such strings, or GCM forgeries under another key, cannot be found is not a theorem.")
c("C149","partial","C149_accepted_partial C149_panics_fails C149_decrypt_fails","The property is false of the code: exact set of accepted and of panicking parameters proved.")
c("C150","proved","C150_lawful C150_roundtrip","")
c("C151","partial","C151_lawful C151_form C151_texts_partial C151_ones_fails C25_version_unchecked","The form of the exported texts is proved. That there is one text for a key is false of the code: C151_texts_partial gives the exact set of accepted texts.")
c("C152","proved","C152_accepts_iff C152_sound C152_lawful","")
c("C153","partial","C153_panics_iff C153_deserialized_fails C153_no_panic_partial","False of the code: exact panic condition, witness from Deserialize, and no panic for other values of r.")
c("C154","proved","C154_recovers C154_succeeds_iff C154_sign_verify C154_lawful","")
c("C155","proved","C155_rfc6979 C155_sign","For nonces found within the given number of rounds; that one is found cannot be proved of SHA-256.")
c("C156","proved","C156_sign C156_verify C156_lawful","For the build of go-ethereum without cgo, transcribed from knowledge of its source; with cgo the C library is called and stays an assumption.")
