{"id": "C01", "title": "SM3 one-shot hash equals the standard", "statement": "sm3.Sum(data) returns the 32-byte digest defined by GM/T 0004-2012 for data.", "quantifier": "every byte string shorter than 2^61 bytes", "why_tests_cant": "the message space is unbounded; padding boundaries and every block content matter, vectors only sample them", "anchors": ["sm3/sm3.go: Sum, checkSum", "sm3/sm3block.go: blockGeneric"]}
{"id": "C02", "title": "SM3 streaming equals one-shot", "statement": "After any history of Write, Sum and Reset calls on a hasher, Sum(in) returns in followed by the SM3 digest of the concatenation of everything written since the last Reset; Write returns (len(p), nil) and Sum does not change later results.", "quantifier": "every sequence of Write/Sum/Reset calls with any chunk sizes, with fewer than 2^61 bytes written", "why_tests_cant": "the number of chunkings and interleavings is unbounded", "anchors": ["sm3/sm3.go: Write, Sum, Reset, New"]}
{"id": "C03", "title": "SM4 decryption inverts encryption", "statement": "For every 16-byte key and every 16-byte block, Decrypt(Encrypt(b)) = b and Encrypt(Decrypt(b)) = b.", "quantifier": "all 2^128 keys and all 2^128 blocks", "why_tests_cant": "2^256 combinations", "anchors": ["sm4/cipher.go: NewCipher, Encrypt, Decrypt", "sm4/block.go: cryptBlock, generateSubkeys"]}
{"id": "C04", "title": "SM4 conforms to the standard", "statement": "Encrypt under a 16-byte key computes the SM4 function of GB/T 32907 (S-box given algebraically, CK by formula).", "quantifier": "all keys and blocks", "why_tests_cant": "2^256 combinations; published vectors exercise two", "anchors": ["sm4/block.go", "sm4/const.go: sbox, ck, fk"]}
{"id": "C05", "title": "SM4 key-size check and block-size behaviour", "statement": "NewCipher succeeds exactly on 16-byte keys, otherwise returns a KeySizeError carrying the length; Encrypt/Decrypt write exactly the first 16 bytes of dst, read only the first 16 bytes of src and work in place.", "quantifier": "all key lengths, all src/dst buffers of length at least 16", "why_tests_cant": "unbounded lengths and contents", "anchors": ["sm4/cipher.go: NewCipher", "sm4/block.go: cryptBlock"]}
{"id": "C06", "title": "AES-CBC round trip", "statement": "AesDecrypt(AesEncrypt(m,key,iv),key,iv) = m for every message, every valid key and 16-byte iv. The exported PKCS5Padding panics exactly for block sizes that are not positive, otherwise appends 1 to blockSize bytes up to a multiple of the block size, and PKCS5UnPadding undoes it exactly when at most 255 bytes were appended.", "quantifier": "all messages of any length, keys of 16, 24 or 32 bytes, all ivs; for the padding all slices and all block sizes, negative ones included", "why_tests_cant": "unbounded message lengths", "anchors": ["aes/aes.go: AesEncrypt, AesDecrypt"]}
{"id": "C07", "title": "AES-CBC rejects malformed inputs without crashing", "statement": "AesDecrypt of a ciphertext that is shorter than a block or not a whole number of blocks, or with an invalid key size, returns an error and does not panic.", "quantifier": "all ciphertexts, keys and 16-byte ivs", "why_tests_cant": "all lengths", "anchors": ["aes/aes.go: AesDecrypt"]}
{"id": "C08", "title": "PKCS5 unpadding accepts only well-formed padding", "statement": "Unpadding succeeds only on strings that padding can produce.", "quantifier": "all byte strings", "why_tests_cant": "must hold for every string; a counterexample is needed to refute", "anchors": ["aes/aes.go: PKCS5UnPadding, PKCS5Padding"]}
{"id": "C09", "title": "AES encryption does not modify the caller's memory", "statement": "AesEncrypt leaves every byte reachable from the caller's plaintext slice (including spare capacity of its backing array) unchanged.", "quantifier": "all plaintext slices, lengths and capacities", "why_tests_cant": "depends on the capacity of the slice, not only its contents", "anchors": ["aes/aes.go: PKCS5Padding"]}
{"id": "C10", "title": "Compressed EC public-key round trip", "statement": "DecodePublicKey(EncodePublicKey(P, compressed)) = P for every point P on each supported NIST/SM2 curve.", "quantifier": "all affine points of the curve, all random choices made while taking the square root", "why_tests_cant": "about 2^256 points per curve and an internal random search", "anchors": ["ec/key.go: EncodePublicKey, DecodePublicKey", "ec/decompress.go: deCompress"]}
{"id": "C11", "title": "Uncompressed EC public-key round trip", "statement": "DecodePublicKey(EncodePublicKey(P, uncompressed)) = P for every point with coordinates below the field prime.", "quantifier": "all points, all curves", "why_tests_cant": "about 2^256 points", "anchors": ["ec/key.go: EncodePublicKey, DecodePublicKey"]}
{"id": "C12", "title": "Decoded EC public keys are on the curve", "statement": "If DecodePublicKey succeeds the returned point satisfies the curve equation.", "quantifier": "all byte strings and curves", "why_tests_cant": "all inputs; refutation needs an explicit input", "anchors": ["ec/key.go: DecodePublicKey", "ec/decompress.go: deCompress"]}
{"id": "C13", "title": "Modular square root is correct", "statement": "The square root used by point decompression returns a root of every non-zero quadratic residue and an error on every non-residue, for primes 3 mod 4 and 1 mod 4, whatever random values are drawn. Zero has the root 0 for primes 3 mod 4 and is reported as having none for primes 1 mod 4.", "quantifier": "all odd primes, all field elements, all random streams", "why_tests_cant": "all primes and residues; probabilistic loop", "anchors": ["ec/decompress.go: curveSqrt, fastLucasSequence"]}
{"id": "C14", "title": "EC public-key decoding is canonical", "statement": "Two different byte strings never decode to the same public key.", "quantifier": "all pairs of byte strings", "why_tests_cant": "pairs of arbitrary strings", "anchors": ["ec/key.go: DecodePublicKey"]}
{"id": "C15", "title": "Public-key serialization round trip", "statement": "DeserializePublicKey(SerializePublicKey(k)) = k for every ECDSA, SM2, EdDSA and Ethereum public key.", "quantifier": "all keys of every supported type", "why_tests_cant": "all keys", "anchors": ["keypair/key.go: SerializePublicKey, DeserializePublicKey"]}
{"id": "C16", "title": "Public-key serialization is injective", "statement": "Two valid public keys with the same serialization are the same key of the same type.", "quantifier": "all pairs of valid public keys over all types and curves", "why_tests_cant": "pairs of keys across types", "anchors": ["keypair/key.go: SerializePublicKey"]}
{"id": "C17", "title": "Private-key serialization round trip", "statement": "DeserializePrivateKey(SerializePrivateKey(k)) = k for every private key made by key generation.", "quantifier": "all private keys of every supported type", "why_tests_cant": "all keys", "anchors": ["keypair/key.go: SerializePrivateKey, DeserializePrivateKey"]}
{"id": "C18", "title": "Key deserialization never panics", "statement": "DeserializePublicKey and DeserializePrivateKey return a key or an error for every input.", "quantifier": "all byte strings including empty", "why_tests_cant": "all strings; refutation needs explicit inputs", "anchors": ["keypair/key.go: DeserializePublicKey, DeserializePrivateKey"]}
{"id": "C19", "title": "A successful private-key parse yields a key", "statement": "DeserializePrivateKey never returns a nil key together with a nil error.", "quantifier": "all byte strings", "why_tests_cant": "all strings", "anchors": ["keypair/key.go: DeserializePrivateKey"]}
{"id": "C20", "title": "ComparePublicKey decides equality", "statement": "ComparePublicKey(a,b) is true exactly when a and b are the same public key.", "quantifier": "all pairs of public keys", "why_tests_cant": "pairs of keys; a false positive needs a specific pair", "anchors": ["keypair/key.go: ComparePublicKey"]}
{"id": "C21", "title": "FindKey returns the first matching index", "statement": "FindKey(list,k) returns the least index whose key compares equal to k, or -1 if there is none.", "quantifier": "all lists and keys", "why_tests_cant": "unbounded lists", "anchors": ["keypair/publist.go: FindKey"]}
{"id": "C22", "title": "SortPublicKeys is a canonical order", "statement": "SortPublicKeys returns a permutation of its input sorted by one fixed strict weak order, so the result does not depend on the order of the input (for keys with distinct serializations).", "quantifier": "all key lists and all permutations of them", "why_tests_cant": "unbounded lists and permutations", "anchors": ["keypair/publist.go: SortPublicKeys, Less"]}
{"id": "C23", "title": "Curve labels, names and curves are consistent", "statement": "GetCurve(GetCurveLabel(c)) is c for every supported curve, names map back to the same label, and unknown labels and names give an error. Names are compared ignoring case, where the long s (U+017F) counts as s.", "quantifier": "all labels and all strings", "why_tests_cant": "all strings", "anchors": ["keypair/ecurves.go: GetCurve, GetCurveLabel, GetNamedCurve, GetNamedCurveLabel"]}
{"id": "C24", "title": "WIF round trip", "statement": "WIF2Key(Key2WIF(k)) = k for every 32-byte private scalar.", "quantifier": "all 32-byte keys", "why_tests_cant": "2^256 keys", "anchors": ["keypair/wif.go: Key2WIF, WIF2Key"]}
{"id": "C25", "title": "WIF parsing checks integrity", "statement": "WIF2Key accepts only strings whose payload has the right length, whose checksum matches and whose version and compression bytes are the WIF ones.", "quantifier": "all strings", "why_tests_cant": "all strings", "anchors": ["keypair/wif.go: WIF2Key"]}
{"id": "C26", "title": "Encrypted-key round trip", "statement": "Decrypting an encrypted private key with the password, address and scrypt parameters used for encryption returns the same private key.", "quantifier": "all private keys, non-empty passwords, addresses and scrypt parameters", "why_tests_cant": "all passwords and keys", "anchors": ["keypair/encrypt.go: EncryptWithCustomScrypt, DecryptWithCustomScrypt"]}
{"id": "C27", "title": "Encrypted keys are authenticated", "statement": "A ciphertext that is altered, or decrypted under other key material or another address, is rejected instead of yielding a key.", "quantifier": "all alterations of all protected keys", "why_tests_cant": "all alterations", "anchors": ["keypair/encrypt.go: DecryptWithCustomScrypt"]}
{"id": "C28", "title": "Password handling is symmetric", "statement": "Every password accepted by EncryptPrivateKey is accepted by DecryptPrivateKey.", "quantifier": "all passwords", "why_tests_cant": "all passwords", "anchors": ["keypair/encrypt.go: EncryptWithCustomScrypt, DecryptWithCustomScrypt"]}
{"id": "C29", "title": "Re-encryption preserves the key", "statement": "ReencryptPrivateKey(prot, old, new, po, pn) succeeds exactly when prot decrypts under old and the new scrypt parameters are valid, and the result decrypts under a non-empty new to the same key.", "quantifier": "all protected keys, passwords and parameters", "why_tests_cant": "all passwords and keys", "anchors": ["keypair/encrypt.go: ReencryptPrivateKey"]}
{"id": "C30", "title": "Signature serialization round trip", "statement": "Deserialize(Serialize(s)) represents the same signature for every signature Sign produces.", "quantifier": "all schemes and all signature values Sign can output", "why_tests_cant": "all signature values", "anchors": ["signature/signature.go: Serialize, Deserialize"]}
{"id": "C31", "title": "Deserialized signatures can be serialized again", "statement": "Serialize(Deserialize(b)) succeeds without panic and returns b, for every b returned by Serialize.", "quantifier": "all serialized signatures", "why_tests_cant": "all signatures; refutation needs an explicit one", "anchors": ["signature/signature.go: Serialize, Deserialize, serializeDSA"]}
{"id": "C32", "title": "Signature parsing never panics and checks lengths", "statement": "Deserialize returns a signature or an error on every input.", "quantifier": "all byte strings", "why_tests_cant": "all strings", "anchors": ["signature/signature.go: Deserialize"]}
{"id": "C33", "title": "Sign then Verify succeeds", "statement": "For every supported private key, compatible scheme, message and options, if Sign succeeds then Verify with the matching public key returns true.", "quantifier": "all key types, schemes, messages, options and nonces", "why_tests_cant": "all messages and nonces", "anchors": ["signature/signature.go: Sign, Verify"]}
{"id": "C34", "title": "Verify rejects scheme/key mismatches", "statement": "Verify returns false whenever the key type is not compatible with the signature scheme, and Sign returns an error.", "quantifier": "all keys, schemes, messages, signature values", "why_tests_cant": "all combinations", "anchors": ["signature/signature.go: Sign, Verify"]}
{"id": "C35", "title": "Verify never panics", "statement": "Verify returns a boolean for every public key, message and signature obtained from Deserialize.", "quantifier": "all keys, messages and serialized signatures", "why_tests_cant": "all combinations; refutation needs an explicit one", "anchors": ["signature/signature.go: Verify", "signature/secp256k1.go: Secp256k1Verify"]}
{"id": "C36", "title": "Scheme names are a bijection", "statement": "GetScheme(s.Name()) = s for every supported scheme, lookup is insensitive to ASCII case and every other string is an error.", "quantifier": "all schemes and all strings", "why_tests_cant": "all strings", "anchors": ["signature/scheme.go: Name, GetScheme"]}
{"id": "C37", "title": "Ethereum signature conversion", "statement": "ConvertToEthCompatible moves the recovery byte from first to last and subtracts 27, keeps r and s, and leaves its input unchanged.", "quantifier": "all byte strings", "why_tests_cant": "all strings; aliasing is invisible to value tests", "anchors": ["signature/secp256k1.go: ConvertToEthCompatible"]}
{"id": "C38", "title": "SM2 signatures verify", "statement": "For every private key, message, ID and nonce stream, if sm2.Sign returns (r,s) then sm2.Verify accepts them under the matching public key.", "quantifier": "all d in [1,n-2], messages, IDs, random streams", "why_tests_cant": "all keys, messages and nonces", "anchors": ["sm2/signature.go: Sign, Verify"]}
{"id": "C39", "title": "SM2 verification is exactly the standard's check", "statement": "sm2.Verify returns true if and only if 1<=r,s<n, r+s != 0 mod n and the GM/T 0003.2 equation holds.", "quantifier": "all public keys on the curve, messages, IDs, r and s", "why_tests_cant": "all integers r, s", "anchors": ["sm2/signature.go: Verify"]}
{"id": "C40", "title": "SM2 signing terminates with in-range values", "statement": "If sm2.Sign returns, 1 <= r,s < n; signing terminates for every valid private key when the random stream yields a usable nonce.", "quantifier": "all keys in [1,n-1], messages, nonce streams", "why_tests_cant": "infinite nonce streams", "anchors": ["sm2/signature.go: Sign"]}
{"id": "C41", "title": "SM2 identity hash conforms to the standard", "statement": "The digest signed is SM3(Z || M) with Z as in GM/T 0003.2, for every public key and ID, and the empty ID means the default ID.", "quantifier": "all public keys and IDs", "why_tests_cant": "keys with short coordinates occur with probability 2^-8 and 2^-16...", "anchors": ["sm2/signature.go: getZ"]}
{"id": "C42", "title": "SM2 encryption round trip", "statement": "sm2.Decrypt(d, sm2.Encrypt(P,m)) = m for P = dG and every non-empty message and nonce stream.", "quantifier": "all keys, messages, nonce streams", "why_tests_cant": "all messages and nonces; the failing path needs a KDF retry", "anchors": ["sm2/encryption.go: Encrypt, Decrypt"]}
{"id": "C43", "title": "SM2 decryption rejects what it cannot authenticate", "statement": "sm2.Decrypt returns an error and no plaintext for every string that is not a valid ciphertext, and never panics.", "quantifier": "all byte strings", "why_tests_cant": "all strings", "anchors": ["sm2/encryption.go: Decrypt"]}
{"id": "C44", "title": "SM2 key derivation conforms to the standard", "statement": "The mask used by Encrypt/Decrypt is the first klen bytes of SM3(Z||1)||SM3(Z||2)||..., for every length.", "quantifier": "all lengths and shared points", "why_tests_cant": "unbounded lengths", "anchors": ["sm2/encryption.go: sm3kdf"]}
{"id": "C45", "title": "VRF completeness", "statement": "If Vrf(sk,m) returns (v,proof) then Verify(pk,m,v,proof) is true.", "quantifier": "all keys on supported curves, messages and random streams", "why_tests_cant": "all keys, messages and nonces", "anchors": ["vrf/vrf.go: Vrf, Verify", "vrf/vrf_ec.go: Evaluate, ProofToHash"]}
{"id": "C46", "title": "VRF value is a function of key and message", "statement": "The value returned by Vrf is the encoded point D*H, with D the private scalar and H the curve point that the public key and message hash to; so it depends only on key and message, not on randomness.", "quantifier": "all keys, messages, pairs of random streams", "why_tests_cant": "pairs of executions", "anchors": ["vrf/vrf_ec.go: Evaluate"]}
{"id": "C47", "title": "VRF verification checks the claimed value", "statement": "Verify(pk,m,v,proof) is true exactly if v encodes a point V of the curve, proof has the exact length, and its first half is the challenge for the commitments tG+sQ and tH+sV; for fixed commitments a value V other than D*H is acceptable for at most one challenge.", "quantifier": "all public keys, messages, values and proofs", "why_tests_cant": "all strings", "anchors": ["vrf/vrf.go: Verify", "vrf/vrf_ec.go: ProofToHash"]}
{"id": "C48", "title": "VRF verification leaves its arguments unchanged", "statement": "Verify does not change the bytes of the value and proof passed in (including spare capacity).", "quantifier": "all argument slices, lengths, capacities, overlaps", "why_tests_cant": "depends on aliasing, not on values", "anchors": ["vrf/vrf.go: Verify, Vrf"]}
{"id": "C49", "title": "VRF challenge reduction is in range", "statement": "The challenge integer derived from a hash is in [1, n-1] for every input.", "quantifier": "all inputs", "why_tests_cant": "all inputs; rejection loop", "anchors": ["vrf/vrf_ec.go: hashToInt"]}
{"id": "C50", "title": "Key generation is in range and consistent", "statement": "A generated EC private key has 1 <= D < n and public key D*G, and ConstructPrivateKey gives the same public key.", "quantifier": "all curves and random streams", "why_tests_cant": "all random streams", "anchors": ["ec/key.go: GenerateECKeyPair, ConstructPrivateKey"]}
{"id": "C51", "title": "SM2 curve parameters are sound", "statement": "The SM2 curve constants in the code define an elliptic curve over a prime field on which the base point has prime order n.", "quantifier": "the constants of the code", "why_tests_cant": "a test cannot establish primality or group order", "anchors": ["sm2/curves.go: initP256"]}
{"id": "C52", "title": "amd64 field multiplication is correct", "statement": "The assembly multiplication, squaring and from-Montgomery routines return a*b*2^-256 mod p, fully reduced, for all inputs below p (and as documented for unreduced inputs).", "quantifier": "all pairs of 256-bit operands", "why_tests_cant": "2^512 operand pairs; carry bugs occur with probability around 2^-32..2^-64", "anchors": ["sm2/p256_asm_amd64.s: sm2p256Mul, sm2p256Sqr, sm2p256FromMont"]}
{"id": "C53", "title": "amd64 scalar-field multiplication is correct", "statement": "The assembly multiplication modulo the group order returns a*b*2^-256 mod n for all inputs below n.", "quantifier": "all pairs of operands", "why_tests_cant": "2^512 operand pairs", "anchors": ["sm2/p256_asm_amd64.s: sm2p256OrdMul"]}
{"id": "C54", "title": "amd64 modular inversion is correct", "statement": "The amd64 Inverse(k) is k^-1 mod n and the field inversion returns z^-1 mod p.", "quantifier": "all k in [1,n-1], all field elements", "why_tests_cant": "2^256 inputs", "anchors": ["sm2/p256_amd64.go: Inverse, p256Inverse"]}
{"id": "C55", "title": "Signed-digit recoding is correct", "statement": "The window recodings used by scalar multiplication represent the scalar: the signed digits weighted by powers of the window sum to the scalar.", "quantifier": "all 256-bit scalars", "why_tests_cant": "2^256 scalars", "anchors": ["sm2/p256_amd64.go: boothW5, boothW7, p256ScalarMult, p256BaseMult"]}
{"id": "C56", "title": "amd64 field subtraction is reduced", "statement": "The assembly subtraction used by the point formulas returns a-b mod p, fully reduced, for a,b below p.", "quantifier": "all pairs of operands", "why_tests_cant": "failing operands have density about 2^-32", "anchors": ["sm2/p256_asm_amd64.s: sm2p256SubInternal"]}
{"id": "C57", "title": "amd64 scalar multiplication computes k*P", "statement": "ScalarMult(P,k) on amd64 is k times P for every point P of the curve and every scalar k.", "quantifier": "all points and scalars", "why_tests_cant": "failing points have density about 2^-32", "anchors": ["sm2/p256_amd64.go: ScalarMult, p256ScalarMult", "sm2/p256_asm_amd64.s"]}
{"id": "C58", "title": "Curve initialisation is safe under concurrency", "statement": "Any number of goroutines calling SM2P256V1 concurrently all get the same fully initialised curve, initialised exactly once, and all calls return.", "quantifier": "all numbers of goroutines and all interleavings", "why_tests_cant": "unbounded schedules", "anchors": ["sm2/curves.go: SM2P256V1"]}
{"id": "C59", "title": "Empty messages are treated uniformly", "statement": "Verify accepts what Sign produced also for the empty message.", "quantifier": "all keys and schemes, empty message", "why_tests_cant": "all keys", "anchors": ["signature/signature.go: Sign, Verify"]}
{"id": "C60", "title": "Ethereum verification hashes like signing", "statement": "For the Ethereum scheme Verify checks the digest that Sign signed, whatever the message length.", "quantifier": "all messages", "why_tests_cant": "length-32 corner case for all messages", "anchors": ["signature/signature.go: Sign, Verify", "signature/secp256k1.go"]}
{"id": "C61", "title": "Lucas sequence computation", "statement": "The Lucas-sequence routine behind point decompression returns U_k and V_k modulo p for every k > 0.", "quantifier": "all moduli p > 0, all parameters P, Q and all indices k > 0", "why_tests_cant": "The ladder depends on every bit of k and on modular arithmetic over arbitrary primes; a sample of indices cannot cover all bit patterns.", "anchors": ["ec/decompress.go: fastLucasSequence, getLowestSetBit"]}
{"id": "C62", "title": "A parsed private key is consistent", "statement": "If DeserializePrivateKey succeeds with a key, an EC key's public half is D*G for the D and curve in the input and equals the embedded public key, an Ethereum key has 1 <= D < n and public half D*G, and an Ed25519 key consists of the input bytes.", "quantifier": "all byte strings", "why_tests_cant": "inputs are arbitrary byte strings", "anchors": ["keypair/key.go: DeserializePrivateKey", "ec/key.go: ConstructPrivateKey"]}
{"id": "C63", "title": "Parsed private scalars are in range", "statement": "A private key returned by DeserializePrivateKey has 1 <= D < n.", "quantifier": "all byte strings", "why_tests_cant": "a value outside the range has to be searched among 2^256 scalars on every curve", "anchors": ["keypair/key.go: DeserializePrivateKey"]}
{"id": "C64", "title": "Public-key parsing is canonical", "statement": "Two different byte strings never parse to the same public key.", "quantifier": "all pairs of byte strings", "why_tests_cant": "pairs of arbitrary inputs", "anchors": ["keypair/key.go: DeserializePublicKey"]}
{"id": "C65", "title": "GetP256KeyPairFromWIF returns a key or an error", "statement": "GetP256KeyPairFromWIF agrees with WIF2Key on everything WIF2Key accepts and never panics.", "quantifier": "all byte strings", "why_tests_cant": "inputs are arbitrary strings", "anchors": ["keypair/key.go: GetP256KeyPairFromWIF"]}
{"id": "C66", "title": "Metadata of a protected key is bound to the key", "statement": "Changing the algorithm or curve recorded in a ProtectedKey makes decryption fail.", "quantifier": "all keys, passwords, salts and altered records", "why_tests_cant": "needs all alterations", "anchors": ["keypair/encrypt.go: EncryptWithCustomScrypt, DecryptWithCustomScrypt"]}
{"id": "C67", "title": "GCM nonce and key come from disjoint parts of the derived key", "statement": "With the default parameters, and whenever the derived key is at least 44 bytes long, nonce and encryption key do not overlap in the derived key; for shorter accepted lengths they overlap.", "quantifier": "all passwords, salts and parameters", "why_tests_cant": "parameter space", "anchors": ["keypair/encrypt.go: EncryptWithCustomScrypt"]}
{"id": "C68", "title": "Encrypting a private key never panics", "statement": "EncryptWithCustomScrypt returns a protected key or an error for every private key the package can generate.", "quantifier": "all keys and parameters", "why_tests_cant": "all key types and parameters", "anchors": ["keypair/encrypt.go: EncryptWithCustomScrypt"]}
{"id": "C69", "title": "SM2 ciphertexts conform to the standard", "statement": "sm2.Encrypt produces, and sm2.Decrypt accepts, exactly the C1||C3||C2 ciphertexts of GM/T 0003.4.", "quantifier": "all key pairs, non-empty messages and nonces", "why_tests_cant": "about one nonce in 256 hits a coordinate with a leading zero byte", "anchors": ["sm2/encryption.go Encrypt", "sm2/encryption.go Decrypt"]}
{"id": "C70", "title": "SM2 encryption returns", "statement": "sm2.Encrypt returns for every message as soon as the nonce stream yields a nonce with a usable mask.", "quantifier": "all keys, messages, random inputs", "why_tests_cant": "non-termination cannot be observed by a test", "anchors": ["sm2/encryption.go Encrypt", "sm2/encryption.go sm3kdf"]}
{"id": "C71", "title": "Signatures survive transport", "statement": "A signature made by Sign, serialized, transmitted and deserialized elsewhere is accepted by Verify under the signer's public key.", "quantifier": "all keys, schemes, messages, options, and placements of the bytes in memory", "why_tests_cant": "all signature values and memory layouts", "anchors": ["signature/signature.go: Sign, Serialize, Deserialize, Verify"]}
{"id": "C72", "title": "Verify is standard ECDSA with the hash in the scheme's name", "statement": "For the schemes named XwithECDSA, Verify of numbers (r, s) accepts exactly when standard ECDSA verification of X(message) does; an accepted compact signature satisfies the ECDSA equation for the given key.", "quantifier": "all keys on supported curves, messages, integers r and s", "why_tests_cant": "all integers and messages", "anchors": ["signature/signature.go: Verify", "signature/scheme.go: GetHash, names"]}
{"id": "C73", "title": "VRF key support", "statement": "ValidatePrivateKey and ValidatePublicKey accept exactly ECDSA and SM2 keys on the supported curves other than P-521; Vrf and Verify return an error for every key that is refused.", "quantifier": "all keys and all other arguments", "why_tests_cant": "all keys", "anchors": ["vrf/vrf.go: Vrf, Verify, ValidatePrivateKey, ValidatePublicKey, getHash"]}
{"id": "C74", "title": "VRF panics", "statement": "With a proper key Vrf and Verify return no error, and panic exactly when none of the 100 hash-to-curve candidates for public key and message is on the curve (Verify: only for a well-formed value and proof).", "quantifier": "all key pairs and public keys on supported curves, messages, values, proofs", "why_tests_cant": "all messages; the failing ones cannot be sampled", "anchors": ["vrf/vrf_ec.go: hashToCurve, Evaluate, ProofToHash"]}
{"id": "C75", "title": "Parsed public keys are of the named kind", "statement": "A public key that DeserializePublicKey accepts has the algorithm and curve its bytes name; an Ed25519 key has exactly 32 bytes; an Ethereum key is a reduced point of secp256k1; nothing else is accepted.", "quantifier": "all byte strings and square-root randomness", "why_tests_cant": "all byte strings", "anchors": ["keypair/key.go: DeserializePublicKey"]}
{"id": "C76", "title": "Generated keys are of the requested kind", "statement": "GenerateKeyPair returns a key of the requested algorithm and curve whose public half belongs to the private half, and an error for every other algorithm or option.", "quantifier": "all algorithm bytes, options and random streams", "why_tests_cant": "all random streams and option values", "anchors": ["keypair/key.go: GenerateKeyPair"]}
{"id": "C77", "title": "Encoding refuses out-of-range points", "statement": "EncodePublicKey either panics or returns a string of the length of the format starting with its tag, and different coordinates never give the same string.", "quantifier": "all curves, all coordinates including those longer than the field", "why_tests_cant": "all integers as coordinates", "anchors": ["ec/key.go: EncodePublicKey"]}
{"id": "C78", "title": "amd64 byte order conversion", "statement": "Converting 32 big-endian bytes to four words and back reverses the bytes exactly, for overlapping arguments too, and writes nothing else.", "quantifier": "all machine states, arguments and overlaps", "why_tests_cant": "2^256 values and every overlap of the buffers", "anchors": ["sm2/p256_asm_amd64.s: p256_sm2BigToLittle, p256_sm2LittleToBig"]}
{"id": "C79", "title": "amd64 point addition", "statement": "The point addition routine writes Jacobian coordinates of P+Q for any representation of P and Q, any overlap of arguments, and touches no other memory.", "quantifier": "all machine states, points and representations", "why_tests_cant": "2^1536 operands; failing ones have density about 2^-64", "anchors": ["sm2/p256_asm_amd64.s: p256_sm2PointAddAsm"]}
{"id": "C80", "title": "amd64 point doubling", "statement": "The doubling routine writes Jacobian coordinates of 2P.", "quantifier": "all machine states, points and representations", "why_tests_cant": "2^768 operands; failing ones have density about 2^-64", "anchors": ["sm2/p256_asm_amd64.s: p256_sm2PointDoubleAsm"]}
{"id": "C81", "title": "amd64 mixed addition", "statement": "The mixed addition routine writes P, Q, -Q, P+Q or P-Q as its three selectors say.", "quantifier": "all machine states, points, representations and selectors", "why_tests_cant": "2^1280 operands and every selector value", "anchors": ["sm2/p256_asm_amd64.s: p256_sm2PointAddAffineAsm"]}
{"id": "C82", "title": "amd64 table lookup and conditional move", "statement": "The constant-time lookups return the entry with the given index, zero for index 0 or out of range; the conditional move returns one of its two operands; the loops end and nothing else is written.", "quantifier": "all machine states, tables, indices and overlaps", "why_tests_cant": "every table content and 64-bit index", "anchors": ["sm2/p256_asm_amd64.s: p256_sm2Select, p256_sm2SelectBase, p256_sm2MovCond"]}
{"id": "C83", "title": "amd64 base point multiplication", "statement": "ScalarBaseMult(k) on amd64 is k G for every scalar k.", "quantifier": "all byte strings", "why_tests_cant": "2^256 scalars", "anchors": ["sm2/p256_amd64.go: ScalarBaseMult, p256BaseMult, initTable"]}
{"id": "C84", "title": "amd64 combined multiplication", "statement": "CombinedMult(P, s, t) on amd64 is s G + t P for every point and scalars.", "quantifier": "all points and scalars", "why_tests_cant": "2^512 pairs of scalars, failing ones are rare", "anchors": ["sm2/p256_amd64.go: CombinedMult"]}
{"id": "C85", "title": "SM2 verification on amd64 is the standard's check", "statement": "On amd64 sm2.Verify accepts exactly the signatures the standard's check accepts.", "quantifier": "all keys, hash functions, ids, messages and signatures", "why_tests_cant": "the wrongly rejected signatures are a 2^-255 fraction", "anchors": ["sm2/signature.go: Verify", "sm2/p256_amd64.go: CombinedMult"]}
{"id": "C86", "title": "SM2 signatures made on amd64 are valid", "statement": "On amd64 whatever sm2.Sign returns passes the standard's check, and sm2.Verify on amd64.", "quantifier": "all keys, hash functions, ids, messages and random inputs", "why_tests_cant": "all nonces", "anchors": ["sm2/signature.go: Sign, Verify", "sm2/p256_amd64.go: ScalarBaseMult, Inverse, CombinedMult"]}
{"id": "C87", "title": "constant-time amd64 routines", "statement": "The memory addresses an amd64 assembly routine accesses, and the branches it takes, depend on nothing but the addresses of its arguments: not on field elements, scalars, table indices, signs or conditions.", "quantifier": "all machine states: contents of memory, registers, flags and non-pointer arguments", "why_tests_cant": "a secret-dependent access may occur for a single index or operand only; a test measures few runs", "anchors": ["sm2/p256_asm_amd64.s: every routine called from Go"]}
{"id": "C88", "title": "amd64 curve methods do not depend on stale memory and write nothing else", "statement": "On amd64 the result of ScalarMult, ScalarBaseMult, CombinedMult and Inverse depends on the arguments only, whatever the memory they allocate, the registers and the flags contained before; they return, and they write to no memory but their own.", "quantifier": "all arguments, contents of memory, registers at each call of an assembly routine, and all placements of the arrays that do not overlap", "why_tests_cant": "a read of memory that was not written, or a write past an array, shows for some placements and contents only; a test runs on zeroed memory", "anchors": ["sm2/p256_amd64.go: ScalarMult, ScalarBaseMult, CombinedMult, Inverse, initTable, p256ScalarMult, p256BaseMult, p256PointToAffine", "sm2/p256_asm_amd64.s"]}
{"id": "C89", "title": "amd64 curve methods in concurrent goroutines", "statement": "On amd64, when goroutines call the curve methods at the same time, the first calls of ScalarBaseMult and CombinedMult included, each call returns what it returns alone.", "quantifier": "all histories: any number of goroutines and calls, interleaved after any instruction, with writes by the rest of the program to other memory", "why_tests_cant": "a race on the table or on its initialization shows in few of the schedules", "anchors": ["sm2/p256_amd64.go: precomputeOnce, initTable, p256Precomputed, ScalarMult, ScalarBaseMult, CombinedMult, Inverse", "sm2/p256_asm_amd64.s"]}
{"id": "C90", "title": "every call of an amd64 curve method returns", "statement": "On amd64 every call of a curve method returns, whatever the other goroutines do, if the scheduler keeps running the goroutines that are in a call.", "quantifier": "all fair infinite histories", "why_tests_cant": "deadlock and starvation are properties of infinite schedules", "anchors": ["sm2/p256_amd64.go: precomputeOnce, initTable and the four methods", "sm2/p256_asm_amd64.s"]}
{"id": "C91", "title": "constant-time amd64 curve methods", "statement": "On amd64 the addresses of the memory that ScalarMult, ScalarBaseMult, CombinedMult and Inverse access in the assembly routines and their arrays, and the branches taken there, do not depend on scalars, points or contents of memory.", "quantifier": "all pairs of scalars, points, memories and registers", "why_tests_cant": "a secret-dependent access may occur for a single digit of a scalar only", "anchors": ["sm2/p256_amd64.go: ScalarMult, ScalarBaseMult, CombinedMult, Inverse", "sm2/p256_asm_amd64.s"]}
{"id": "C92", "title": "an SM2 digest binds message, user id and key", "statement": "Two SM2 signing or verification calls that compute the same digest were given the same message, user id and public key, or exhibit a collision of the hash function.", "quantifier": "all messages, user ids of any length, public keys and hash functions", "why_tests_cant": "ids and keys are concatenated without separators, and the length field is 16 bits; an ambiguity may exist for particular lengths only", "anchors": ["sm2/signature.go: getZ, Sign, Verify"]}
{"id": "C93", "title": "SM2 nonces depend on key, entropy and digest", "statement": "The nonce of an SM2 signature is taken from a cipher stream whose key is the hash of a string that determines the private key, the 16 bytes read from the random source and the digest. So two signatures by one key on different digests share the stream only if the hash function collides, even when the random source repeats.", "quantifier": "all keys, messages, ids, random streams and lawful external parts", "why_tests_cant": "nonce reuse for one pair of messages in 2^128 discloses the private key and cannot be sampled", "anchors": ["sm2/signature.go: Sign, randFieldElement, zr"]}
{"id": "C94", "title": "SM2 nonces are close to uniform", "statement": "From uniform bytes each nonce from 1 to n - 2 is made with the same probability up to a factor of 1 + 2^-64, and no other number is made.", "quantifier": "all 2^320 byte strings read for a nonce", "why_tests_cant": "a bias this small cannot be measured by sampling", "anchors": ["sm2/signature.go: randFieldElement"]}
{"id": "C95", "title": "signatures have one encoding", "statement": "Two byte strings that deserialize to the same signature are equal.", "quantifier": "all byte strings", "why_tests_cant": "a second encoding may exist for particular lengths or values only", "anchors": ["signature/signature.go: Deserialize, Serialize"]}
{"id": "C96", "title": "accepted signatures cannot be altered", "statement": "Who knows an accepted signature and not the private key cannot make a different one that is accepted for the same message and key.", "quantifier": "all keys, messages and accepted signatures", "why_tests_cant": "it is a statement about all modifications", "anchors": ["signature/signature.go: Verify", "sm2/signature.go: Verify"]}
{"id": "C97", "title": "a signature is accepted for one message", "statement": "A signature that is accepted for two messages under one key exhibits a hash collision.", "quantifier": "all keys, pairs of messages and signatures", "why_tests_cant": "it is a statement about all pairs of messages", "anchors": ["signature/signature.go: Verify", "sm2/signature.go: Verify"]}
{"id": "C98", "title": "parsed public keys are independent of the input buffer", "statement": "Whatever is written into the buffer after DeserializePublicKey returned, the parsed key stays the same.", "quantifier": "all buffers, parsed keys and later contents of the buffer", "why_tests_cant": "sharing shows only when a caller reuses a buffer, and only for some key types", "anchors": ["keypair/key.go: DeserializePublicKey"]}
{"id": "C99", "title": "parsed private keys and signatures are independent of the input buffer", "statement": "Whatever is written into the buffer after DeserializePrivateKey or signature.Deserialize returned, the parsed key or signature stays the same.", "quantifier": "all buffers, parsed values and later contents of the buffer", "why_tests_cant": "sharing shows only when a caller reuses or erases a buffer, and only for some key types and lengths", "anchors": ["keypair/key.go: DeserializePrivateKey", "signature/signature.go: Deserialize"]}
{"id": "C100", "title": "SM2 with a reused hash object", "statement": "sm2.Sign and sm2.Verify return the same whatever the SM3 hash object passed to them was used for before: writes, sums, resets, other calls of Sign and Verify. After such a history Reset makes the object as good as new.", "quantifier": "all histories of calls on one hash object, all keys, ids and messages", "why_tests_cant": "a missing reset shows only for particular histories", "anchors": ["sm2/signature.go: Sign, Verify, getZ", "sm3/sm3.go: digest"]}
{"id": "C101", "title": "SM2 encryption nonces depend on key, entropy and message", "statement": "The nonce that masks an SM2 ciphertext is taken from a cipher stream whose key is the hash of a string that determines the x coordinate of the public key, the 16 bytes read from the random source and the SM3 digest of the message.", "quantifier": "all public keys, random inputs and messages", "why_tests_cant": "that no two messages share a stream is a statement about all pairs of calls", "anchors": ["sm2/encryption.go: Encrypt", "sm2/signature.go: randFieldElement"]}
{"id": "C102", "title": "Generated private keys are uniform", "statement": "ECDSA and SM2 private scalars made from uniform random bytes are exactly uniform below the group order; Ethereum scalars are uniform from 1 to the order less 1 up to a factor of 1 + 2^-64; each Ed25519 key is made from one seed.", "quantifier": "all curves, all scalars, all numbers of reads", "why_tests_cant": "a distribution over 2^256 keys cannot be sampled", "anchors": ["keypair/key.go: GenerateKeyPair", "ec/key.go: GenerateECKeyPair"]}
{"id": "C103", "title": "A key survives its whole life", "statement": "A generated key comes back unchanged from any sequence of serialization, parsing, encryption, re-encryption, decryption, WIF export and import; what is signed with it then verifies under the public key after transport of both.", "quantifier": "all generated keys, all sequences of calls, all messages", "why_tests_cant": "sequences of calls of any length and all keys", "anchors": ["keypair/key.go", "keypair/encrypt.go", "keypair/wif.go", "signature/signature.go"]}
{"id": "C104", "title": "The low-level VRF functions agree on the index, for any fitting hash object with any history", "statement": "For every key pair on a supported curve and every hash object whose digests are as long as the curve's field elements, whatever was written to it before, ProofToHash accepts each proof that Evaluate returns for the same message and yields the same index, namely the SHA-256 digest of the VRF value; ProofToHash yields an index only for proofs that satisfy the verification equation. With a digest size that does not fit, Evaluate returns a zero index and a nil proof, ProofToHash returns an error, and the hash object is untouched.", "quantifier": "all key pairs, messages, nonces, hash functions, states of the hash object before the call, and all proofs", "why_tests_cant": "The hash object's earlier use, the combination of curve and hash function (Vrf itself only ever chooses five) and the loops without bound over counters make the space of calls infinite.", "anchors": ["vrf/vrf_ec.go: Evaluate, ProofToHash, hashToCurve, hashToInt"]}
{"id": "C105", "title": "One SM4 cipher in concurrent goroutines", "statement": "One cipher from NewCipher can be used by any number of goroutines at once: under every interleaving of their steps, as long as overlapping calls do not write memory that another one reads or writes, each Encrypt or Decrypt on buffers of at least 16 bytes returns after a bounded number of its own steps, and its dst then holds the standard's SM4 of what src held at the call; no other memory changes. A call with a short buffer panics: with a short src before anything is written, with a short dst after dst was filled with the first bytes of the result.", "quantifier": "all keys, all sequences of calls, steps, returns and writes by other code (schedules), all buffers and overlaps that the discipline permits", "why_tests_cant": "Interleavings are unbounded in number and a test run sees only a few of them; a cipher that kept scratch space in the shared object would pass almost every run.", "anchors": ["sm4/cipher.go: NewCipher, Encrypt, Decrypt", "sm4/block.go: cryptBlock"]}
{"id": "C106", "title": "A failing random source gives an error and nothing else", "statement": "If a read from the system's random source fails, key generation, SM2 signing, SM2 encryption, encryption of a private key and VRF evaluation return an error and no result, whatever was read before and whatever later reads would give; what they return without a failure depends only on the bytes delivered. Parsing a public key gives an error at worst.", "quantifier": "all histories of successful and failing reads, all keys, messages and options", "why_tests_cant": "failures of the system's random source cannot be provoked at every read of every call", "anchors": ["keypair/key.go: GenerateKeyPair, DeserializePublicKey", "ec/key.go: GenerateECKeyPair", "ec/decompress.go: curveSqrt", "sm2/signature.go: Sign", "sm2/encryption.go: Encrypt", "keypair/encrypt.go: EncryptWithCustomScrypt", "vrf/vrf.go: Vrf"]}
{"id": "C107", "title": "Protected keys survive storage as JSON", "statement": "A protected key or a set of scrypt parameters that is written with json.Marshal and read with json.Unmarshal comes back the same, so that encrypting, storing, reading and decrypting gives the same private key. In objects written by other programs the order of the members, the case of their names and members with other names do not matter, the last value for a name counts, and fields that are not named are empty or 0.", "quantifier": "all protected keys with any address, algorithm, curve, ciphertext and salt; all scrypt parameters; all private keys and passwords", "why_tests_cant": "all addresses and ciphertexts, including text in any script and byte strings that are not text", "anchors": ["keypair/encrypt.go: ProtectedKey, ScryptParam, EncryptWithCustomScrypt, DecryptWithCustomScrypt"]}
{"id": "C108", "title": "Sorting keys in place, call by call", "statement": "SortPublicKeys never loses, duplicates or changes a key in the caller's slice, even when it panics half way. For keys of known types and curves it returns the one documented order. A list of two or more keys with a key of unknown type, or with two keys of one type of which one is on an unknown curve, is never returned as sorted: the call panics.", "quantifier": "all lists of keys, all positions of bad keys, all correct comparison sorting programs, all points of panic", "why_tests_cant": "all lists, all sorting programs and all points at which Less can panic", "anchors": ["keypair/publist.go: SortPublicKeys, Less, Swap"]}
{"id": "C109", "title": "SM2 verification accepts exactly what signing makes", "statement": "For a private key in the standard's range, sm2.Verify accepts a pair of numbers if and only if the standard's signing makes it from the private key, the message digest and some random number; the random number is unique.", "quantifier": "all private keys from 1 to n-2, user ids, messages, hash functions and pairs of integers, of any sign and size", "why_tests_cant": "all pairs of integers and all keys", "anchors": ["sm2/signature.go: Verify, Sign"]}
{"id": "C110", "title": "A wrong VRF value is accepted only if the challenge hash hits a number fixed beforehand", "statement": "For each public key there is a function of points, independent of the hash function, such that whatever vrf.Verify accepts is the one value of key and message, or the challenge hash of the transcript equals the number this function gives for the points in the transcript.", "quantifier": "all supported curves, public keys, hash functions, messages, values, proofs and heaps", "why_tests_cant": "all values and proofs a dishonest key owner can make", "anchors": ["vrf/vrf.go: Verify", "vrf/vrf_ec.go: ProofToHash"]}
{"id": "C111", "title": "VRF verification accepts exactly the proofs that Vrf makes", "statement": "For a key pair, a message and the value that belongs to them, vrf.Verify accepts a proof exactly if vrf.Vrf returns it for some random number; the random number is unique.", "quantifier": "all supported curves, key pairs, messages, proofs, random numbers and heaps", "why_tests_cant": "all proofs, also ones that no honest party makes", "anchors": ["vrf/vrf.go: Vrf, Verify", "vrf/vrf_ec.go: Evaluate, ProofToHash"]}
{"id": "C112", "title": "Private-key parsing is canonical", "statement": "Two different byte strings never parse to the same private key with DeserializePrivateKey.", "quantifier": "all pairs of byte strings", "why_tests_cant": "Ranges over every pair of byte strings; a test compares a few.", "anchors": ["keypair/key.go: DeserializePrivateKey, SerializePrivateKey", "ec/key.go: ConstructPrivateKey"]}
{"id": "C113", "title": "What Sign, Verify and Serialize do with any arguments", "statement": "A signature returned by Sign has the scheme that was asked for and a value of the documented kind: for SM2 two numbers from 1 to n-1 with the user id from the option, for ECDSA two numbers below the order or, on secp256k1, 65 bytes, for Ed25519 64 bytes, for Ethereum 65 bytes. Sign panics only for an Ed25519 key of wrong length. For any signature value, also one that a caller builds by hand, Verify panics only if an Ed25519 or Ethereum value is not a byte slice of sufficient length or the Ed25519 key has a wrong length, and Serialize panics only if the numbers have no curve or are too long for it. Panics of the libraries are excepted. Whether a key is labelled ECDSA or SM2 makes no difference to Sign and Verify.", "quantifier": "all private and public keys, schemes, messages, options, random inputs and signature values", "why_tests_cant": "The arguments are interface values of many kinds that combine freely with schemes, keys and options; tests try the fitting combinations only.", "anchors": ["signature/signature.go:Sign", "signature/signature.go:Verify", "signature/signature.go:Serialize", "signature/signature.go:serializeDSA", "signature/secp256k1.go"]}
{"id": "C114", "title": "Curve methods on platforms without assembly", "statement": "On platforms other than amd64, where the SM2 curve has the methods of elliptic.CurveParams, ScalarMult, ScalarBaseMult, Add and Double return the coordinates of the point that the group law gives, for every point including infinity, every scalar given as bytes of any length, and also for coordinates that are not reduced; IsOnCurve decides the curve equation. So on those platforms sm2.Verify accepts what sm2.Sign returns and accepts exactly what the standard's check accepts, with nothing assumed of the curve methods; and any two correct implementations of the curve methods make the same signature from the same random bytes and give the same verdicts.", "quantifier": "every point and pair of points, every scalar byte string, every pair of integers, every curve with a = -3 that the library uses; every key, id, message, hash function and random input", "why_tests_cant": "there are about 2^256 points and scalars, and the exceptional cases (equal points, opposite points, infinity inside the loop) are met with negligible probability by random tests", "anchors": ["sm2/curves.go:p256Curve", "sm2/curves.go:SM2P256V1", "sm2/signature.go:Sign", "sm2/signature.go:Verify"]}
{"id": "C115", "title": "Public() of a private key is its public key", "statement": "For every private key obtained from GenerateKeyPair or DeserializePrivateKey, the method Public of the key returns the public key that belongs to it: the one GenerateKeyPair returned, usable with SerializePublicKey, ComparePublicKey, FindKey and Verify.", "quantifier": "all key types, all random streams, all serialized private keys", "why_tests_cant": "The result depends on the dynamic type behind an interface and on the length of parsed keys; tests call Public for the key types they happen to construct.", "anchors": ["keypair/key.go PrivateKey, GenerateKeyPair, DeserializePrivateKey", "ec/key.go PrivateKey.Public, EthereumPrivateKey"]}
{"id": "C116", "title": "Keys from other Ethereum software", "statement": "A key pair of other Ethereum software given to FromEthereumPrivateKey becomes a key pair of this library: both halves serialize and parse back, GetEthereumPubKey returns the original public key and signatures verify. A key that is no secp256k1 key pair is refused. GetEthereumPubKey succeeds exactly for Ethereum keys.", "quantifier": "all ECDSA private keys, on any curve, consistent or not; all public keys; all messages", "why_tests_cant": "Which keys survive the conversion is a statement about every pair of scalar and point on every curve.", "anchors": ["keypair/key.go FromEthereumPrivateKey, GetEthereumPubKey, SerializePrivateKey, DeserializePrivateKey, SerializePublicKey, DeserializePublicKey"]}
{"id": "C117", "title": "GetKeyType agrees with the serialization", "statement": "For every valid public key GetKeyType returns the documented type of the key, which is the first byte of its serialization except for ECDSA keys on P-256 (2 or 3), and every parsed key has the type its first byte says.", "quantifier": "all valid public keys, all byte strings", "why_tests_cant": "Quantifies over every key on every curve and every byte string that parses.", "anchors": ["keypair/key.go GetKeyType, SerializePublicKey, DeserializePublicKey"]}
{"id": "C118", "title": "An SM3 hasher keeps no reference to the caller's memory", "statement": "For every sequence of Write, Sum and Reset calls on a hasher from sm3.New, with the caller changing their memory in any way between the calls: each Write returns the number of bytes of its argument and takes them as they are at that moment, each Sum returns its argument followed by the SM3 digest of the bytes written since the last Reset, and no call other than Sum changes memory. Sum changes only the 32 bytes of spare capacity behind its argument if there are that many, and otherwise allocates. Two Sums with one argument that has spare capacity return the same slice, so the first digest is overwritten.", "quantifier": "all contents of memory, slices, sequences of calls with fewer than 2^61 bytes between two resets, and changes of memory between calls", "why_tests_cant": "aliasing and overwriting depend on the whole history and on slice capacities", "anchors": ["sm3/sm3.go: Write", "sm3/sm3.go: Sum", "sm3/sm3.go: Reset"]}
{"id": "C119", "title": "Signatures with missing parts are never accepted", "statement": "A Signature whose Value is a nil *DSASignature or *SM2Signature, or lacks R or S, is accepted by Verify under no key and message. Verify panics for it exactly if the message is not empty and either the key is an EC key, the type of the value is that of the scheme, and R is missing or in range (1 and up for ECDSA, 1 to n-1 for SM2), or the key is an Ed25519 or Ethereum key and the scheme is the one of the key; otherwise Verify returns false. Serialize panics for it if the type of the value is that of the scheme and returns an error otherwise. For all other values the outcomes are those of C113.", "quantifier": "all keys, messages, schemes and values with nil pointers or nil numbers", "why_tests_cant": "the outcome depends on the order of the checks for every combination of key type, scheme, value type and missing part", "anchors": ["signature/signature.go: Verify", "signature/signature.go: Serialize", "signature/signature.go: serializeDSA", "sm2/signature.go: Verify"]}
{"id": "C120", "title": "SM2 encryption and the VRF on amd64", "statement": "On amd64, sm2.Encrypt, sm2.Decrypt, vrf.Vrf and vrf.Verify on SM2 keys return exactly what they return with a curve implementation that computes in the group of points, given the same random bytes. So all that holds of them for a correct curve (C42, C43, C45 to C47) holds on amd64.", "quantifier": "all keys, messages, ciphertexts, proofs and random bytes", "why_tests_cant": "the assembly methods are wrong for one private key in 2^256 and for rare coordinates, which no sample meets", "anchors": ["sm2/encryption.go: Encrypt", "sm2/encryption.go: Decrypt", "vrf/vrf.go: Vrf", "vrf/vrf.go: Verify", "sm2/p256_amd64.go: ScalarMult, ScalarBaseMult"]}
{"id": "C121", "title": "SM2 keys on amd64", "statement": "On amd64, where SM2 uses assembly, GenerateKeyPair, ConstructPrivateKey, DeserializePrivateKey and DecryptWithCustomScrypt return what they return with a curve implementation that computes in the group of points: the public half is the scalar times the base point, stored keys parse to the same key and ill-matched ones are refused.", "quantifier": "All key types, options, random bytes, serialized keys, protected keys, passwords and scalars.", "why_tests_cant": "The assembly reads the scalar in 43 windows of 6 bits and adds table entries; there are 2^256 scalars and each key type and stored form reaches it in another way.", "anchors": ["ec/key.go: GenerateECKeyPair, ConstructPrivateKey", "keypair/key.go: GenerateKeyPair, DeserializePrivateKey", "keypair/encrypt.go: DecryptWithCustomScrypt", "sm2/p256_amd64.go: ScalarBaseMult"]}
{"id": "C122", "title": "Keys and signatures can be used by several goroutines at once", "statement": "DecodePublicKey, EncodePublicKey, ConstructPrivateKey, GenerateECKeyPair, the serialization of EC keys and of ECDSA and SM2 signatures, ComparePublicKey, sm2 Sign, Verify, Encrypt and Decrypt, the VRF's Evaluate and ProofToHash and the methods of the SM2 curve on amd64 never change the numbers they are given: the key, the signature, the curve's parameters and the package variables keep their values at every moment. Goroutines that make such calls at the same time on the same key, signature and curve have no data race, and each call returns what it returns when it runs alone. The numbers in a result are new: no other goroutine can change them, and they are not the numbers of the curve or of the key.", "quantifier": "Any number of goroutines, all calls and arguments, all interleavings of their reads, writes and allocations of numbers.", "why_tests_cant": "The code computes with number objects that methods overwrite in place; whether an overwritten object is shared shows only in particular interleavings or in a later call, and there are unboundedly many.", "anchors": ["ec/decompress.go: fastLucasSequence, curveSqrt, deCompress", "ec/key.go: DecodePublicKey", "sm2/signature.go: randFieldElement, getZ, Sign, Verify", "sm2/encryption.go: Encrypt, Decrypt", "vrf/vrf_ec.go: hashToCurve, hashToInt, Evaluate, ProofToHash", "sm2/p256_amd64.go: Inverse, p256GetScalar, maybeReduceModP, ScalarMult, ScalarBaseMult, CombinedMult", "ec/key.go: EncodePublicKey, ConstructPrivateKey, GenerateECKeyPair", "keypair/key.go: SerializePublicKey, SerializePrivateKey, ComparePublicKey", "signature/signature.go: Serialize, serializeDSA"]}
{"id": "C123", "title": "A collision of SM3 shows a collision of its compression function", "statement": "If sm3.Sum gives the same digest for two different messages, then in computing the two digests the compression function was applied somewhere to different arguments and gave the same result, and from there on the two padded messages have the same blocks: so SM3 as implemented is as hard to find collisions for as its compression function.", "quantifier": "All pairs of messages of fewer than 2^61 bytes (the length field counts bits modulo 2^64).", "why_tests_cant": "No test can exhibit a collision; that none arises from padding, the length field, block boundaries or the initial state must hold for all pairs of messages.", "anchors": ["sm3/sm3.go: Sum, checkSum, Write", "sm3/sm3block.go: block"]}
{"id": "C124", "title": "the tag of an SM2 ciphertext determines message and key", "statement": "When sm2.Decrypt returns without error for two strings whose bytes 64 to 95 agree, under the same or different private keys, the messages are equal unless an SM3 collision is known. In particular nobody who knows no collision can change what follows the first 96 bytes of an accepted ciphertext, and no ciphertext is accepted by two private keys that are neither equal nor opposite.", "quantifier": "all private keys on the SM2 curve, all pairs of accepted strings and all pairs of different keys", "why_tests_cant": "the statement is about every pair of strings and keys, including those an attacker chooses; a test can only try some alterations", "anchors": ["sm2/encryption.go: Decrypt, sm3kdf", "sm3/sm3.go: Sum"]}
{"id": "C125", "title": "How many random numbers decompression needs", "statement": "DecodePublicKey on any bytes needs no random numbers, or returns one fixed key as soon as a drawn number is suitable. In the second case exactly ((P+1)/2)^n of the P^n sequences of n numbers below the field prime P are not enough, so each uniform draw ends the search with probability (P-1)/(2P), whatever point is decoded. Of the supported curves only P-224 needs random numbers.", "quantifier": "All byte strings, all curves over an odd prime field, all numbers n of draws and all sequences of draws", "why_tests_cant": "The waiting time is unbounded and depends on the point; a test sees a few points and a few draws and cannot exclude a point for which almost no draw is suitable.", "anchors": ["ec/decompress.go: curveSqrt, deCompress", "ec/key.go: DecodePublicKey"]}
{"id": "C126", "title": "A changed AES ciphertext is rejected", "statement": "AesDecrypt accepts only what AesEncrypt made with the same key and iv; a ciphertext, or an iv, that was changed on the way is rejected.", "quantifier": "All messages, keys of 16, 24 or 32 bytes, ivs of 16 bytes and changes", "why_tests_cant": "How many of the 256^(16n) strings of n blocks are accepted, under every key, cannot be tried out.", "anchors": ["aes/aes.go: AesEncrypt, AesDecrypt, PKCS5UnPadding"]}
{"id": "C127", "title": "Results of earlier calls can be used in later calls: every history of calls gives right results in new objects", "statement": "A goroutine can make any sequence of calls (generate or construct a key, decode, encode, serialize, compare, sign, verify, encrypt, decrypt, evaluate and check a VRF, and the SM2 curve methods of amd64), pass to each of them objects that were there at the start or that its own earlier calls returned, look at numbers and overwrite numbers of its own in between, and choose what to do next from all results so far. Every call returns what it returns for the values its arguments have at that moment, in number objects that did not exist before, and keeps the value of every object that existed. This holds for any number of such goroutines and every interleaving of their steps, without data races. So keys returned by different calls share no number, and changing one does not affect the other; the two halves that one key generation returns do share their coordinates, and overwriting a coordinate of the public key changes the private key.", "quantifier": "all numbers of goroutines, all sequences of calls with all arguments reachable at that point, all dependencies of later calls on earlier results, all values written in between, all interleavings", "why_tests_cant": "Aliasing between a result and an argument or an earlier result shows up only in the history in which one of them is changed later; tests make few calls on fresh keys and never overwrite a number, and interleavings cannot be enumerated by running.", "anchors": ["ec/key.go: GenerateECKeyPair, ConstructPrivateKey, EncodePublicKey, DecodePublicKey", "keypair/key.go: SerializePublicKey, SerializePrivateKey, ComparePublicKey", "sm2/signature.go: Sign, Verify", "sm2/encryption.go: Encrypt, Decrypt", "vrf/vrf_ec.go: Evaluate, ProofToHash", "sm2/p256_amd64.go: ScalarMult, ScalarBaseMult, CombinedMult, Inverse", "signature/signature.go: Serialize"]}
{"id": "C128", "title": "Serialized, encrypted and decrypted keys and signatures are in memory of their own", "statement": "SerializePublicKey, SerializePrivateKey, Serialize of signatures, EncryptWithCustomScrypt, DecryptWithCustomScrypt and ReencryptPrivateKey return their results in new memory and change no memory that was there. Writing into a key or a protected key later does not change what was made from it, and writing into a result later changes no key, although parsing an Ed25519 key does share memory with the buffer.", "quantifier": "all keys, protected keys and signatures of every kind on every heap, all growth rules of bytes.Buffer, all passwords, parameters and outcomes of the random source, and all later writes", "why_tests_cant": "Whether two slices share an array does not show in the bytes returned, only in writes after the call; a test would need to write to every buffer after every call, for every key type, length and growth of the buffer.", "anchors": ["keypair/key.go:SerializePublicKey", "keypair/key.go:SerializePrivateKey", "signature/signature.go:Serialize", "keypair/encrypt.go:EncryptWithCustomScrypt", "keypair/encrypt.go:DecryptWithCustomScrypt", "keypair/encrypt.go:ReencryptPrivateKey", "ec/key.go:EncodePublicKey"]}
{"id": "C129", "title": "WIF conversion leaves no copy of the key in its buffers", "statement": "Key2WIF, WIF2Key and GetP256KeyPairFromWIF overwrite with zeros every byte slice in which they held the private key, before they return, whether they succeed or fail; they change no memory that was there before the call, and apart from that they behave as if there were no memory.", "quantifier": "all private keys of every kind, all WIF texts in any slice of any heap, all SHA-256 and base58 functions, all growth rules of bytes.Buffer, all outcomes including errors and panics", "why_tests_cant": "Memory that is no longer reachable cannot be inspected by a test, and whether a buffer is cleared depends on the path that the call takes.", "anchors": ["keypair/wif.go:Key2WIF", "keypair/wif.go:WIF2Key", "keypair/wif.go:clearBytes", "keypair/key.go:GetP256KeyPairFromWIF"]}
{"id": "C130", "title": "SM2 encryption and decryption write nothing about the message to standard output", "statement": "sm2.Encrypt and sm2.Decrypt do not write to the process's output anything that depends on the message, the key or the nonce; their only effects are their results.", "quantifier": "all keys, messages, ciphertexts, spare capacities, random inputs, numbers of rejected nonces and curve implementations", "why_tests_cant": "Whether the output depends on the message shows only for the inputs whose mask starts with zero bytes, one in 256, and for longer runs far fewer; no sample settles what the output tells for every input.", "anchors": ["sm2/encryption.go:sm3kdf", "sm2/encryption.go:Encrypt", "sm2/encryption.go:Decrypt"]}
{"id": "C131", "title": "SM2 encryption, decryption, signing and verification leave their arguments alone", "statement": "sm2.Encrypt and sm2.Decrypt return their results in new memory; they, sm2.Sign and sm2.Verify change no memory that was there, neither the bytes of their arguments nor those in the capacity beyond. A message or a ciphertext can be overwritten after the call without an effect on the result, and a result can be overwritten without an effect on anything else.", "quantifier": "all keys, messages and ciphertexts anywhere in memory, with any capacity beyond their length, all random inputs, numbers of rejected nonces, curve arithmetic and growth rules of append", "why_tests_cant": "a test looks at a few buffers; that no other buffer changes and that no memory is shared, in every layout of the memory and for every number of rejected nonces, it cannot see", "anchors": ["sm2/encryption.go: Encrypt, Decrypt, sm3kdf", "sm2/signature.go: Sign, Verify, getZ"]}
{"id": "C132", "title": "SM4 reads memory at places that tell nothing of key or data", "statement": "How often, and at which entries, NewCipher, Encrypt and Decrypt of package sm4 read the substitution table depends neither on the key nor on the block, so that a program that shares the cache learns nothing of them.", "quantifier": "All 16-byte keys, all blocks, all positions of the slices, both directions", "why_tests_cant": "Accesses to memory are not visible in results, and a test has only a few keys.", "anchors": ["sm4/block.go: sm4_tao, generateSubkeys, cryptBlock", "sm4/cipher.go: NewCipher, Encrypt, Decrypt"]}
{"id": "C133", "title": "Whether AesDecrypt accepts a ciphertext tells nothing about messages", "statement": "Someone who has a ciphertext made by AesEncrypt and may give other ciphertexts and ivs to AesDecrypt under the same key, seeing only whether they are accepted, learns nothing about the message.", "quantifier": "All messages, keys of 16, 24 or 32 bytes, ivs of 16 bytes, and all questions asked", "why_tests_cant": "It is about what is the same for every message and key that answers alike, so about all pairs of them.", "anchors": ["aes/aes.go: AesDecrypt, AesEncrypt, PKCS5UnPadding"]}
{"id": "C134", "title": "Repeated random numbers do not disclose the private key", "statement": "When the random source gives the same bytes in two calls of Sign or of Vrf with one private key, the two results do not tell the private key.", "quantifier": "All EC keys on supported curves, all messages, all random numbers, all results of two successful calls", "why_tests_cant": "That no, or every, pair of results tells the key is a statement about all keys, messages and random numbers.", "anchors": ["vrf/vrf.go: Vrf", "vrf/vrf_ec.go: Evaluate", "sm2/signature.go: Sign"]}
{"id": "C135", "title": "A signature is accepted under one key", "statement": "A signature is accepted for a message under at most one public key, so that it tells who signed.", "quantifier": "all schemes, curves, keys, messages and signatures", "why_tests_cant": "A test checks a signature under the signer's key and under some unrelated keys. The second key under which it is accepted has to be computed from the signature.", "anchors": ["signature/signature.go: Verify", "signature/secp256k1.go: Secp256k1Verify", "sm2/signature.go: Verify"]}
{"id": "C136", "title": "A signature is accepted under one scheme", "statement": "A signature that is accepted for a message with one scheme is not accepted for it when the scheme is replaced by another one, unless the two hash functions give the same digest.", "quantifier": "all pairs of schemes, curves, keys, messages and signatures", "why_tests_cant": "A test replaces the scheme of some signatures; a signature accepted under two schemes needs a key pair computed for the purpose.", "anchors": ["signature/signature.go: Verify", "signature/scheme.go: GetHash"]}
{"id": "C137", "title": "A key survives its whole life on amd64", "statement": "On amd64 a generated key comes back unchanged from any sequence of export, import, encryption, re-encryption and decryption, and what is signed with it is accepted under its public key after key and signature were serialized and parsed elsewhere.", "quantifier": "all key types, random sources, sequences of successful calls, messages, schemes and options, with the SM2 curve of sm2/p256_amd64.go", "why_tests_cant": "The sequences of calls and the keys are unbounded, and the assembly goes wrong for operands that random tests do not meet.", "anchors": ["keypair/key.go: GenerateKeyPair", "keypair/key.go: SerializePrivateKey", "signature/signature.go: Sign", "signature/signature.go: Verify", "sm2/p256_amd64.go: ScalarBaseMult"]}
{"id": "C138", "title": "Different messages have different VRF values", "statement": "Under one key the VRF gives different values for different messages, as long as the digests of the strings that it hashes differ modulo the prime of the curve; this holds for values it computes and for values it accepts.", "quantifier": "all supported curves, keys, hash functions, pairs of messages, values, proofs, random numbers and heaps", "why_tests_cant": "Tests compare the values of a few messages; that no step after hashing adds coincidences concerns all keys and points.", "anchors": ["vrf/vrf.go: Vrf", "vrf/vrf.go: Verify", "vrf/vrf_ec.go: hashToCurve", "vrf/vrf_ec.go: Evaluate", "vrf/vrf_ec.go: ProofToHash"]}
{"id": "C139", "title": "A failed call leaves memory as it was", "statement": "A call of Encrypt or Decrypt of an SM4 cipher, of AesEncrypt or of PKCS5Padding that returns an error or panics has changed no byte of memory, so that a program that recovers can go on.", "quantifier": "all contents of memory, slices of any length, capacity and position, keys, ivs and block sizes", "why_tests_cant": "The state after a panic in the middle of a call depends on the order of checks and writes for every length and overlap of the buffers.", "anchors": ["sm4/block.go: cryptBlock", "sm4/cipher.go: Encrypt", "sm4/cipher.go: Decrypt", "aes/aes.go: AesEncrypt", "aes/aes.go: PKCS5Padding"]}
{"id": "C140", "title": "A parsed key protects what is signed with it or encrypted for it", "statement": "Under an SM2 or ECDSA public key that DeserializePublicKey returned, nobody can make signatures that Verify accepts without the private key, and nobody can read what Encrypt made for it without the private key.", "quantifier": "all byte strings that are parsed, all messages, schemes, user ids, random numbers and numbers s of a signature, with and without assembly", "why_tests_cant": "The forgeries and the readable ciphertexts exist for particular keys only, but there for every message; a test would have to know these keys.", "anchors": ["keypair/key.go: DeserializePublicKey", "ec/key.go: DecodePublicKey", "sm2/signature.go: Verify", "sm2/encryption.go: Encrypt", "signature/signature.go: Verify"]}
{"id": "C141", "title": "ECDSA signatures of this package are those of the standard, with the library code included", "statement": "With crypto/ecdsa as it stands in the standard library, what Sign returns for an ECDSA scheme is a signature of SEC 1 by this key over the digest named in the scheme, and Verify accepts exactly the pairs that SEC 1 accepts; for P-384, P-521 and SM2 keys without assembly this holds with no assumption on the curve methods.", "quantifier": "all curves, keys, digests of every length, random numbers and pairs of numbers (r, s)", "why_tests_cant": "It is a statement about all digests, nonces and pairs of numbers on all curves; tests with fixed vectors do not reach digests longer or shorter than the order, zero digests, or the values of s and r where verification refuses.", "anchors": ["signature/signature.go: Sign", "signature/signature.go: Verify"]}
{"id": "C142", "title": "ECDSA nonces depend on key, random bytes and digest, and are close to uniform", "statement": "The nonce of every ECDSA signature that Sign returns is taken from a cipher stream whose key is the hash of a string that determines the private key, the bytes read from the random source and the digest, and lies between 1 and the order minus 1; from uniform bytes all these numbers are made with the same probability up to a factor of 1 + 2^-63. So two signatures by one key on different digests share the stream only if the hash function collides, even when the random source repeats.", "quantifier": "all keys on the supported curves, messages, schemes and random streams; all byte strings read for a nonce", "why_tests_cant": "It is a statement about the distribution over all 2^288 and more strings that are read, and about all pairs of calls; no test sees a bias of 2^-63 or a repeated stream.", "anchors": ["signature/signature.go: Sign"]}
{"id": "C143", "title": "ECDSA with keys on the SM2 curve on amd64", "statement": "On amd64, Verify with an ECDSA scheme and a public key on the SM2 curve accepts exactly the signatures the ECDSA standard accepts, and Sign with such a key returns only signatures the standard accepts.", "quantifier": "all keys on the SM2 curve, ECDSA schemes, messages, signatures and random streams", "why_tests_cant": "The assembly code of the curve is reached through two optional interfaces of the standard library, and the exceptional cases are hit by about one in 2^256 inputs; a random test never sees one.", "anchors": ["signature/signature.go: Sign, Verify", "sm2/p256_amd64.go: p256Curve.Inverse, p256Curve.CombinedMult, p256Curve.ScalarBaseMult"]}
{"id": "C144", "title": "A changed protected key is accepted only for few hash keys", "statement": "Of two protected keys in aes-256-gcm format with the same salt that differ in the address or in the encrypted key, DecryptPrivateKey and DecryptWithCustomScrypt accept both with one password only if the hash key, which is derived from password and salt, lies in a set that the two records determine without the password; of the 2^128 possible hash keys the set has at most as many as the longer record has blocks of 16 bytes, plus one.", "quantifier": "all pairs of records, passwords, parameters, and all block ciphers in place of AES", "why_tests_cant": "The chance that a change is accepted is about 2^-120; no test hits a case, and the bound rests on an irreducible polynomial of degree 128.", "anchors": ["keypair/encrypt.go: EncryptWithCustomScrypt, DecryptWithCustomScrypt, gcmCipher"]}
{"id": "C145", "title": "A protected key tells nothing about the private key but its kind", "statement": "Without the password, the record that EncryptPrivateKey or EncryptWithCustomScrypt returns tells nothing about the private key but its type and curve, also if records of other keys, and some of these keys, are known.", "quantifier": "all private keys, addresses, passwords, salts and parameters", "why_tests_cant": "It is about what can be computed from the record for all keys and all passwords; that records can have several lengths shows in one of 256 keys, and equal salts do not occur in tests.", "anchors": ["keypair/encrypt.go: EncryptWithCustomScrypt"]}
{"id": "C146", "title": "AES with the library code included", "statement": "With AES, CBC, GCM and CTR as the standards define them, AesDecrypt undoes AesEncrypt for all keys of 16, 24 and 32 bytes, and the block cipher and the modes have all the properties that the claims on AesEncrypt, AesDecrypt and protected keys assume; only the key derivation by scrypt stays external.", "quantifier": "all keys, blocks, texts, nonces and ivs", "why_tests_cant": "Known-answer tests see a handful of the 2^256 keys; that decryption inverts encryption for every key and block needs the algebra of the rounds.", "anchors": ["aes/aes.go: AesEncrypt, AesDecrypt", "keypair/encrypt.go: gcmCipher, ctrCipher"]}
{"id": "C147", "title": "What ciphertexts tell about messages", "statement": "A ciphertext of AesEncrypt tells no more about the message than the number of its whole 16-byte blocks. This holds of its length. It is false of its contents: with an iv used twice under a key, two ciphertexts agree in their first blocks exactly as far as the messages do; with any ivs, two equal blocks of ciphertext tell the difference of the two blocks of message.", "quantifier": "all messages, keys, ivs, and positions of blocks", "why_tests_cant": "A test sees single ciphertexts; what two of them tell together is a statement on all pairs of messages and all positions.", "anchors": ["aes/aes.go: AesEncrypt, PKCS5Padding"]}
{"id": "C148", "title": "Only the password decrypts", "statement": "A protected key can be decrypted only with the password under which it was encrypted. This is false: a password with zero bytes added, up to 64 bytes in all, decrypts the same, and so does the SHA-256 digest of a password of more than 64 bytes. Any other password of at most 64 bytes that derives the same key gives a collision of SHA-256.", "quantifier": "all passwords, protected keys, salts and parameters", "why_tests_cant": "The pairs of passwords that collide are not seen by random tests; that there are no others is a statement on all pairs.", "anchors": ["keypair/encrypt.go: DecryptPrivateKey, DecryptWithCustomScrypt, kdf"]}
{"id": "C149", "title": "Unsuitable parameters of the key derivation give an error", "statement": "EncryptWithCustomScrypt and DecryptWithCustomScrypt return an error for every parameter set that scrypt cannot use. This is false: with a valid N and a zero P, or a zero R and a positive P, they panic. The parameter sets that are accepted are exactly those with a key length of at least 32, N a power of two from 2 on, R and P positive, R*P < 2^30 and N*R < 2^56.", "quantifier": "all parameters (integers), keys, addresses, passwords and salts", "why_tests_cant": "Four integer parameters; the panics lie at zero values that come from a missing field in stored parameters.", "anchors": ["keypair/encrypt.go: EncryptWithCustomScrypt, DecryptWithCustomScrypt, kdf"]}
{"id": "C150", "title": "Protected keys with all library code included", "statement": "With scrypt, SHA-256, AES, GCM and CTR as their standards define them, EncryptPrivateKey never fails for a supported key once the salt is drawn, DecryptPrivateKey returns the key for every non-empty password, and nothing is left to assume of the code that is called.", "quantifier": "all keys, addresses, passwords and salts", "why_tests_cant": "The claims on protected keys assumed laws of library code; that these laws hold for all inputs of the actual functions is not testable.", "anchors": ["keypair/encrypt.go: EncryptPrivateKey, DecryptPrivateKey, kdf, gcmCipher, ctrCipher, saltFromAddress"]}
{"id": "C151", "title": "The texts of exported keys", "statement": "Every text that Key2WIF returns has 52 characters and begins with K or L, and it is the only text from which WIF2Key makes that key. The second part is false: WIF2Key accepts a text with any number of characters 1 before it, and texts with other version and compression bytes. The accepted texts are exactly: any number of 1, then in base 58 a byte other than 0, the 32 bytes of the scalar, one byte, and the first four bytes of the double SHA-256.", "quantifier": "all private keys and all texts", "why_tests_cant": "All texts of all lengths; the form of the exported text is a statement on an interval of 2^296 numbers.", "anchors": ["keypair/wif.go: Key2WIF, WIF2Key"]}
{"id": "C152", "title": "Compact signatures with the recovery code of btcec", "statement": "Verify accepts a compact signature exactly when the message is not empty, the signature has 65 bytes, r is no multiple of the order, the header and r name a point R of secp256k1, and r Q + e G = s R for the given key Q and the digest e. What the other properties assume of key recovery holds of that code.", "quantifier": "all keys, messages, schemes named XwithECDSA and compact signatures", "why_tests_cant": "All signatures, also those that no signer makes; the equation is one in the group of the curve.", "anchors": ["signature/secp256k1.go: Secp256k1Verify", "signature/signature.go: Verify"]}
{"id": "C153", "title": "Verify does not panic on compact signatures", "statement": "Verify returns a boolean on every compact signature that Deserialize returns. False: it panics exactly when r is the order of secp256k1 with a header 27, 28, 31 or 32, or zero with a header 29, 30, 33 or 34, for every EC key, also of another curve, and every message that is not empty.", "quantifier": "all EC keys, messages, schemes named XwithECDSA and byte strings", "why_tests_cant": "Two values of r out of 2^256, and whether a point with that x-coordinate exists.", "anchors": ["signature/secp256k1.go: Secp256k1Verify", "signature/signature.go: Verify, Deserialize"]}
{"id": "C154", "title": "Signing with secp256k1 keys, with the code of btcec", "statement": "What Sign returns for a secp256k1 key under a scheme named XwithECDSA has 65 bytes with a header from 27 to 30 and a low s, does not depend on the random source, and is accepted by Verify, whatever nonces are used. For a key pair Sign fails only when the nonce makes r or s zero, and it never panics.", "quantifier": "all keys, messages, schemes, random sources and nonces", "why_tests_cant": "All keys and messages; the four candidates of the recovery must include the right one for every point.", "anchors": ["signature/secp256k1.go: Secp256k1Sign, Secp256k1Verify", "signature/signature.go: Sign, Verify"]}
{"id": "C155", "title": "Compact signatures use the nonces of RFC 6979", "statement": "The nonce with which Sign makes a signature for a secp256k1 key is the one of RFC 6979 for HMAC-SHA-256, the private key and the digest: the first candidate from 1 to N - 1. So the signature depends on key and message alone, no random source is read, and Verify accepts it.", "quantifier": "all keys, messages, schemes named XwithECDSA and random sources", "why_tests_cant": "All keys and digests, and any number of rejected candidates; a rejected candidate has probability 2^-127 and is not met in tests.", "anchors": ["signature/secp256k1.go: Secp256k1Sign", "signature/signature.go: Sign"]}
{"id": "C156", "title": "Ethereum signatures built on btcec meet what is relied on", "statement": "With go-ethereum built without cgo, signing a 32-byte digest with an Ethereum key gives 65 bytes r, s, v: an ECDSA signature of the digest under the key, with s at most N/2 and v from 0 to 3, from which the public key of the signer is recovered. Verification of 64 bytes r, s accepts exactly the ECDSA signatures of the digest under the key with s at most N/2.", "quantifier": "all Ethereum keys, digests, signatures and nonces from 1 to N - 1", "why_tests_cant": "All keys, digests and nonces, and acceptance as an equivalence: that nothing else is accepted.", "anchors": ["signature/signature.go: Sign", "signature/signature.go: Verify"]}
