# Design

Target: ontio/ontology-crypto (Go) at the pinned commit in /repo. Nothing in /repo was built or run; the model is a reading of the source.

## Layout

* `lean/Verif/Base/*` bytes, big-endian integers, Go results and slices (model of the Go runtime subset used).
* `lean/Verif/Spec/*` small specifications, written from the standards or from the English property, not from the code.
* `lean/Verif/Model/*` the code, function by function, each definition citing file and lines.
* `lean/Verif/Lemmas/*` helper lemmas.
* `lean/Verif/Props/*` the property theorems and, beside each, a non-vacuity example.

## Plan per property

* **C01 SM3 one-shot hash equals the standard** - Model sm3.go/sm3block.go on BitVec 32 words; separate spec written from GM/T 0004 (bit padding, message expansion, CF as fold). Refinement theorem by induction over blocks.
* **C02 SM3 streaming equals one-shot** - State machine over Write/Sum/Reset with the digest struct; invariant (h = compress of whole blocks, buffer = remainder, len mod 2^64); induction over histories.
* **C03 SM4 decryption inverts encryption** - Feistel involution: induction over round lists with xor cancellation.
* **C04 SM4 conforms to the standard** - Spec with affine/inverse S-box over GF(2)[x]/(0x1F5) and CK formula; 256-entry table by decide +kernel lifted by a lemma; round recursion by induction.
* **C05 SM4 key-size check and block-size behaviour** - Buffers as lists; case analysis on length.
* **C06 AES-CBC round trip** - AES block function is a parameter (a permutation of 16-byte blocks per key); CBC modelled; induction over blocks, padding arithmetic.
* **C07 AES-CBC rejects malformed inputs without crashing** - Case analysis of the model, panics as an explicit result.
* **C08 PKCS5 unpadding accepts only well-formed padding** - False of the code: negation with witness; characterisation of what is accepted.
* **C09 AES encryption does not modify the caller's memory** - False of the code: slice model (backing array, length, capacity), negation with witness plus exact frame theorem.
* **C10 Compressed EC public-key round trip** - Big-endian codecs, deCompress over an abstract odd prime with square-root theorem C13; parity selection.
* **C11 Uncompressed EC public-key round trip** - List arithmetic on fixed-width big-endian codecs.
* **C12 Decoded EC public keys are on the curve** - Compressed branch proved; uncompressed branch refuted by witness.
* **C13 Modular square root is correct** - curveSqrt modelled with a random stream; Euler criterion and Lucas-sequence ladder over ZMod p.
* **C14 EC public-key decoding is canonical** - False of the code: witnesses (trailing bytes, unreduced x); partial: canonical inputs.
* **C15 Public-key serialization round trip** - Tag-dispatch codec on top of C10; Ed25519 bytes opaque, Ethereum compress parameter.
* **C16 Public-key serialization is injective** - From the round trip.
* **C17 Private-key serialization round trip** - Codec over big-endian scalars; ed25519 as parameter.
* **C18 Key deserialization never panics** - Public: proved. Private: refuted with witnesses.
* **C19 A successful private-key parse yields a key** - False of the code: witness (unknown tag).
* **C20 ComparePublicKey decides equality** - False of the code for EC keys (Y ignored): witness; partial soundness/completeness characterisation.
* **C21 FindKey returns the first matching index** - Induction over the list.
* **C22 SortPublicKeys is a canonical order** - Less is shown a strict weak order; sort.Sort is a parameter that returns a sorted permutation; uniqueness by sorted-permutation lemma.
* **C23 Curve labels, names and curves are consistent** - Finite tables by case analysis; strings arbitrary.
* **C24 WIF round trip** - base58 and sha256 as parameters with inverse law; list arithmetic.
* **C25 WIF parsing checks integrity** - Checksum and length part proved, version/compression part refuted.
* **C26 Encrypted-key round trip** - scrypt/GCM/AES parameters; codec.
* **C27 Encrypted keys are authenticated** - Relative to the ideal AEAD assumption for GCM; legacy CTR mode refuted.
* **C28 Password handling is symmetric** - False of the code: witness (empty password).
* **C29 Re-encryption preserves the key** - Composition of C26.
* **C30 Signature serialization round trip** - Codec with fixed-width big-endian values per curve; SM2 IDs without NUL; refutation for NUL IDs.
* **C31 Deserialized signatures can be serialized again** - False of the code for DSA/SM2 values: witness; partial for byte-valued schemes.
* **C32 Signature parsing never panics and checks lengths** - Case analysis.
* **C33 Sign then Verify succeeds** - ECDSA/EdDSA/secp256k1 primitives as parameters with completeness law; SM2 proved concretely via C38.
* **C34 Verify rejects scheme/key mismatches** - Case analysis.
* **C35 Verify never panics** - False of the code for Ethereum keys: witness; partial for other keys.
* **C36 Scheme names are a bijection** - Finite tables plus case-folding model of strings.EqualFold.
* **C37 Ethereum signature conversion** - Byte-level and aliasing model; mutation refuted with witness.
* **C38 SM2 signatures verify** - Group law over an abstract prime-order group, instantiated at the SM2 curve over ZMod p.
* **C39 SM2 verification is exactly the standard's check** - Equivalence with a spec predicate.
* **C40 SM2 signing terminates with in-range values** - Nonce stream model; D = n-1 refuted (diverges for every stream).
* **C41 SM2 identity hash conforms to the standard** - Spec with 32-byte coordinates; equal when both coordinates have 32 bytes; refuted otherwise by a concrete key.
* **C42 SM2 encryption round trip** - Model with nonce stream; proved when no KDF retry or full-width; refuted by concrete witness otherwise.
* **C43 SM2 decryption rejects what it cannot authenticate** - Model with panics; refuted for short inputs; partial.
* **C44 SM2 key derivation conforms to the standard** - Induction over counter.
* **C45 VRF completeness** - Curve operations as group of prime order; algebra of the DLEQ proof.
* **C46 VRF value is a function of key and message** - Noninterference statement.
* **C47 VRF verification checks the claimed value** - Unfolding into spec predicate.
* **C48 VRF verification leaves its arguments unchanged** - Slice model, refuted with witness, frame theorem.
* **C49 VRF challenge reduction is in range** - Loop model.
* **C50 Key generation is in range and consistent** - Random stream model.
* **C51 SM2 curve parameters are sound** - Pratt/Pocklington certificates checked by kernel; N*G = O; point count without Hasse.
* **C52 amd64 field multiplication is correct** - x86-64 instruction semantics, interval/linear arithmetic over carries.
* **C53 amd64 scalar-field multiplication is correct** - Same.
* **C54 amd64 modular inversion is correct** - Addition chains evaluated as exponents, Fermat.
* **C55 Signed-digit recoding is correct** - Digit lemma by finite table over windows, telescoping sum by induction.
* **C56 amd64 field subtraction is reduced** - Refuted by witness operands; proved congruence when subtrahend at most a+p.
* **C57 amd64 scalar multiplication computes k*P** - Refuted with a concrete point; partial under no-unreduced-Y hypothesis.
* **C58 Curve initialisation is safe under concurrency** - Goroutine state machine for sync.Once semantics; invariant over all schedules.
* **C59 Empty messages are treated uniformly** - False of the code: theorem that Verify is false on empty message while Sign succeeds.
* **C60 Ethereum verification hashes like signing** - Refuted for 32-byte messages with applyHash; proved otherwise.
* **C61 Lucas sequence computation** - Lucas ladder over ZMod p, induction on the bits of the index; the U component is refuted at even indices.
* **C62 A parsed private key is consistent** - Inversion of the parser model, every success path.
* **C63 Parsed private scalars are in range** - False of the code for EC keys: witness D = n+1 on P-256; proved for Ethereum keys.
* **C64 Public-key parsing is canonical** - False of the code for ECDSA P-256 keys (bare and labelled form): shown for every such key; proved for Ed25519 and Ethereum keys.
* **C65 GetP256KeyPairFromWIF returns a key or an error** - Agreement proved; no-panic is false of the code: exact set of panicking inputs and a witness.
* **C66 Metadata of a protected key is bound to the key** - False of the code: only the address is additional data; shown for every SM2 key. Proved: what is recorded.
* **C67 GCM nonce and key come from disjoint parts of the derived key** - List arithmetic.
* **C68 Encrypting a private key never panics** - False of the code for Ethereum keys: exact set of panicking arguments.
* **C69 SM2 ciphertexts conform to the standard** - Spec.SM2.cipher over Mathlib's group; equality when y2 has no leading zero byte; refuted otherwise by a concrete ciphertext.
* **C70 SM2 encryption returns** - Exact condition for returning; divergence on the empty message for every random input.
* **C71 Signatures survive transport** - composition of C30 and C33 in Props/Signature; the composition is not automatic because deserialized values lack the curve and have other slice capacities.
* **C72 Verify is standard ECDSA with the hash in the scheme's name** - Props/Signature, against Spec/ECDSA; crypto/ecdsa and btcec are parameters with their standard's law.
* **C73 VRF key support** - Case analysis over the curve table in Props/VRF.
* **C74 VRF panics** - Loop of hashToCurve by induction; exact condition in Props/VRF.
* **C75 Parsed public keys are of the named kind** - Case analysis over the accepting paths in Props/KeyShape.
* **C76 Generated keys are of the requested kind** - Case analysis over the accepting paths in Props/KeyShape.
* **C77 Encoding refuses out-of-range points** - Exact panic condition and shape in Props/KeyShape; the last part is refuted by concrete oversize coordinates.
* **C78 amd64 byte order conversion** - Instruction semantics; byte lists.
* **C79 amd64 point addition** - Instruction semantics to field expression, expression to Mathlib's group law; partial: doubling and infinity are not handled by the routine, and inexact operations (C56) can spoil the result.
* **C80 amd64 point doubling** - As C79; partial: inexact operations.
* **C81 amd64 mixed addition** - As C79; partial: P = +-Q, P = 0 and inexact operations.
* **C82 amd64 table lookup and conditional move** - Instruction semantics with a loop invariant over the rounds.
* **C83 amd64 base point multiplication** - Table invariant by induction over rows and columns, digits by C55; partial: runs that depend on an inexact operation.
* **C84 amd64 combined multiplication** - From C57, C79 and C83; refuted for scalar 0, equal multiples and t = n-6; partial elsewhere.
* **C85 SM2 verification on amd64 is the standard's check** - Model of Verify with the amd64 methods in place of the parameters; refuted by a valid signature that is rejected; partial: equivalence apart from the exceptions, so no forgery is added.
* **C86 SM2 signatures made on amd64 are valid** - From C54, C83 and C85; partial: inexact runs and the exceptions of C85.
* **C87 constant-time amd64 routines** - Spec/Leak.lean: the list of accessed addresses of a run. An information-flow check over the instructions (Lemmas/Leak.lean), proved sound for two runs from arbitrary states, evaluated by the kernel on the code of each routine; the loops of the two selections by induction on the counter.
* **C88 amd64 curve methods do not depend on stale memory and write nothing else** - Model/P256Prog: the methods as sequences of assembly calls, copies and stores on one memory. Each call is specified on memory (Lemmas/P256Cells), sequences by composition (P256Steps, P256Mem, P256Methods), refining the model on values.
* **C89 amd64 curve methods in concurrent goroutines** - Model/P256Sched: a machine of goroutines that executes single instructions, with sync.Once. Invariant over reachable states (Lemmas/P256Sched): by a locality analysis of each routine (Touch, P256Path) every running call is in a state of its run alone. Corollaries in terms of the group are partial, as C57 and C83.
* **C90 every call of an amd64 curve method returns** - Rank of a call: the instructions left, and for waiting calls those left of the initialization (Lemmas/P256Fair); decreases at fair steps.
* **C91 constant-time amd64 curve methods** - The sequence of calls depends on the secret in non-pointer arguments only; with C87, by induction on the sequence. Not expressible here: the time of math/big.
* **C92 an SM2 digest binds message, user id and key** - The hashed string as a function of id and key that is the same for every hash function, proved injective. Coordinates are appended without leading zeros, so the boundary between them is not bound: refuted for points off the curve, partial theorem for full-length coordinates.
* **C93 SM2 nonces depend on key, entropy and digest** - From (r, s) the nonce is s + (r + s) D; equate with the stream through the model of Sign. The encoding of the seed is injective.
* **C94 SM2 nonces are close to uniform** - Count the preimages of each residue.
* **C95 signatures have one encoding** - From the format of C32. False for pairs of numbers (padding with zeros): refuted for every encoded signature of that kind; proved for equal lengths and byte-string values.
* **C96 accepted signatures cannot be altered** - Refuted for ECDSA, (r, n - s), for compact signatures (header and s, Props/GoCompact), and Ethereum keys, trailing bytes. For SM2: two accepted signatures with equal r give an equation that determines the private key, or a pair of points with x-coordinates that differ by the order, or the public key is -G; under that key every s in the range is accepted with an accepted r (C96_sm2_minus). Unforgeability as such is not expressible without a computational model.
* **C97 a signature is accepted for one message** - Proved for SM2. Refuted for ECDSA, for any two messages whoever chooses the key can make a common signature; what does follow is an equation that determines the private key. Refuted for Ethereum keys, whose messages of 32 bytes are not hashed. `C97_compact` proves it for the compact signatures of secp256k1 keys from one more law of btcec.RecoverCompact, `RecoversFromPoint`: the point R comes from the signature alone (Props/Compact.lean, where the law is proved of the reference instance).
* **C98 parsed public keys are independent of the input buffer** - The function once more on a heap with slices; refines the model on byte strings; the key lies in a fresh array.
* **C99 parsed private keys and signatures are independent of the input buffer** - As C98. Refuted for every Ed25519 private key and every compact ECDSA signature, proved for all other.
* **C100 SM2 with a reused hash object** - Sign and Verify once more with a hash object with state; for every lawful object they compute the function of Model/SM2; the SM3 object is lawful (C02).
* **C101 SM2 encryption nonces depend on key, entropy and message** - an injective seed function, and the ciphertext as the mask of the nonce made from it (like C93).
* **C102 Generated private keys are uniform** - count the random inputs that give a scalar: an involution on the reads exchanges any two scalars.
* **C103 A key survives its whole life** - induction over the sequence of calls with the invariant that what is held is the key; then C15 and C71.
* **C104 The low-level VRF functions agree on the index, for any fitting hash object with any history** - Model/VRFHasher.lean runs both functions with a stateful hash object; refinement to the functional model (induction over the two loops), then the group-level lemmas of C45/C47 generalised from the five pairs of getHash to every fitting pair.
* **C105 One SM4 cipher in concurrent goroutines** - Model/SM4Sched.lean splits cryptBlock into single reads, rounds and writes and interleaves them; an invariant per call plus a frame lemma for all other events, and a rank that decreases at each own step.
* **C106 A failing random source gives an error and nothing else** - Model/RandFail.lean has the functions that read the random source with a list of outcomes of reads, each a success or a failure. Proved: every outcome is that of the plain model on what was delivered before the first failure, or an error without a result. Two parts are false of the code and are proved to be: on failure GenerateKeyPair returns interfaces holding nil pointers, which are not equal to nil; parsing a compressed P-224 key panics, as the error of rand.Prime is dropped.
* **C107 Protected keys survive storage as JSON** - Model/ProtectJSON.lean: the JSON objects that the struct tags define, as lists of members, with the documented behaviour of encoding/json for names, omitted members, base64 and invalid UTF-8. Round trip by cases on the omitted members, with base64 and UTF-8 proved against RFC 3629. False for addresses that are not UTF-8: they come back changed, and GCM authenticates the address; proved for all of them.
* **C108 Sorting keys in place, call by call** - Model/SortProg.lean: sort.Sort as an arbitrary tree of calls of Less and Swap that meets the contract of package sort. Permutation by induction over the tree. Panic by an adversary argument: two orders agree with all answers given and place the bad key first and last, so a program that did not ask about it is not correct. Insertion sort of package sort is proved to meet the contract.
* **C109 SM2 verification accepts exactly what signing makes** - Spec/SM2.lean gains the standard's signing with a given random number. Acceptance of (r, s) gives k = s + (r + s) d and conversely, by arithmetic modulo the prime order; C39 connects it with the code.
* **C110 A wrong VRF value is accepted only if the challenge hash hits a number fixed beforehand** - Two openings of the same commitments for a wrong value have the same challenge, by linear algebra modulo the group order; C47 connects acceptance by the code with the verification equation. The function is chosen before the hash function.
* **C111 VRF verification accepts exactly the proofs that Vrf makes** - An accepted proof (s, t) gives the random number t + s D; Vrf with it finds the same points and challenge. Partial: t counts modulo the group order, so a proof with small t has a second form that Vrf never returns.
* **C112 Private-key parsing is canonical** - The exact set of accepted encodings of each private key as a theorem; false for EC keys (several forms of the public half, trailing bytes ignored), proved for Ed25519 and Ethereum keys.
* **C113 What Sign, Verify and Serialize do with any arguments** - case analysis over key kinds, schemes and value kinds; the ranges come from the laws of ECDSA and C40.
* **C114 Curve methods on platforms without assembly** - the methods of elliptic.CurveParams written out over the integers (Model/Generic), shown by casting to the field to compute in Mathlib's group of points; the contract assumed by C38 to C48 is then proved for them.
* **C115 Public() of a private key is its public key** - case analysis over the generated and parsed keys (C76, C62); false for Ethereum keys, whose Public is that of the embedded standard library key, shown for every such key.
* **C116 Keys from other Ethereum software** - from C15, C17, C33, C62 and C75; the exact set of keys that survive is given, with a P-256 key as witness that others are not refused.
* **C117 GetKeyType agrees with the serialization** - case analysis over the documented formats (C15) and over the parsed inputs (C75).
* **C118 An SM3 hasher keeps no reference to the caller's memory** - Model/SM3Heap.lean runs Write and Sum on slices of a heap; Sum is Go's append. Proved equal, results and memory, to the abstract hasher that remembers the bytes; the effect of Sum on memory is stated byte by byte.
* **C119 Signatures with missing parts are never accepted** - Model/SigNil.lean: Verify and Serialize once more, with pointers as options. Case analysis; C119_complete shows that values without missing parts are those of Model/Signature.
* **C120 SM2 encryption and the VRF on amd64** - the model of both functions with the curve methods of Model/P256Mult (assembly); equality with the model over lawful curve methods that take scalars congruent to n-6 for 0 (Spec/TakenForZero), by C57 and C83 and a congruence for each function. False of the code for the private key n-6, which amd64 takes for 0: Decrypt refuses every proper ciphertext (concrete witness), and the VRF value is the encoding of (0, 0), which no verifier accepts (for all messages).
* **C121 SM2 keys on amd64** - the model of the key functions with the base point multiplication of Model/P256Mult (assembly) for the SM2 curve; equality with the model over a lawful multiplication by C83 and a congruence for each function.
* **C122 Keys and signatures can be used by several goroutines at once** - programs over a memory of number objects (Model/Big, Model/BigProg, Model/BigAmd64, Model/BigKeys), in which each `big.Int` method reads its arguments and overwrites its receiver; a step relation interleaves the reads, writes and allocations of any number of goroutines. An invariant says that each goroutine only writes objects that it allocated itself, so its run agrees with its run alone, which weakest-precondition lemmas show to return what the value model returns.
* **C123 A collision of SM3 shows a collision of its compression function** - the code's digest is the standard's (C01); going back from the last block, the steps of the two computations agree until they differ, and if they never differ one padded message is the end of the other, which the length field excludes.
* **C124 the tag of an SM2 ciphertext determines message and key** - from the accepted set of C43 the tag is the SM3 value of the message between two 32-byte strings; equal tags of different messages give two different hashed strings. For two keys the x-coordinates of the shared points differ. A pigeonhole argument shows that the hypotheses can be met.
* **C125 How many random numbers decompression needs** - the root search stops at the first draw d below P for which d^2 - 4 y^2 is not a square (Lemmas/EC). Counting the points of the hyperbola v^2 - w^2 = c^2 and summing quadratic characters gives (P-1)/2 such d for every nonzero square; lists of draws are counted by induction (Lemmas/Draws). The code draws primes of full length, about which nothing is claimed beyond which of them are suitable.
* **C126 A changed AES ciphertext is rejected** - false of the code, which uses CBC without authentication. Proved: the exact number of strings of n blocks that are accepted, min(256, 16n+1) * 256^(16n-1), for every key and iv (CBC is a bijection on strings of n blocks, and unpadding looks at the last byte only); that every string of 16 blocks or more is accepted; and that xoring d to the iv xors d to the first block of every message of at least one block.
* **C127 Results of earlier calls can be used in later calls: every history of calls gives right results in new objects** - the number-object programs of C122, composed by client programs (`Client` in Spec/BigCalls.lean): a tree of calls, reads and writes in which everything may depend on earlier results. `Client.Gives` says what a history yields using only the value model and the rule that a call keeps existing objects; the theorem shows that every interleaving of the goroutine programs yields exactly that. Induction over clients from the weakest-precondition lemmas of each call, which hold at any allocation count, and an invariant over interleavings that only needs ownership along the path that is run. Objects handed from one goroutine to another after the start are not modelled.
* **C128 Serialized, encrypted and decrypted keys and signatures are in memory of their own** - Model/SerialHeap.lean has the functions once more with slices on a heap and a bytes.Buffer with any growth rule. Each is proved to give the outcome of the model without memory, in arrays that were not there, with the old heap kept; the effect of later writes follows. The external AES, scrypt and big.Int functions are taken to return new slices, as their documentation says.
* **C129 WIF conversion leaves no copy of the key in its buffers** - Model/WifHeap.lean has the three functions with their slices on a heap that survives errors. Proved for GetP256KeyPairFromWIF on every path and for WIF2Key on success. False otherwise, with proofs: WIF2Key leaves the number behind when length or checksum are wrong (for every key there is such a text), Key2WIF leaves the slice of D.Bytes() behind on success and the whole serialization when it refuses the key.
* **C130 SM2 encryption and decryption write nothing about the message to standard output** - false of the code: `sm3kdf` prints a line for each mask byte that it looks at. Model: Model/SM2Print writes `sm3kdf`, `Encrypt` and `Decrypt` again with the lines printed; proved equal to Model/SM2 in what they return. Proved: exactly which lines are printed for every input (their number is one more than the length of the common prefix of message and ciphertext, after one block for each rejected nonce; none on errors before the mask), what a reader of the output learns, and a concrete call that discloses the first byte.
* **C131 SM2 encryption, decryption, signing and verification leave their arguments alone** - The functions are modelled again on a heap of arrays with slices (Model/SM2Heap.lean): every make, append and copy, with append's growth left open. Proved by an invariant: the arrays that are written are new and different from each other. The result is compared with the model without memory, so all theorems about that carry over.
* **C132 SM4 reads memory at places that tell nothing of key or data** - `Model/SM4Trace.lean` is the SM4 model in which every function also returns the indices at which `sm4_sbox` is read; `C132_same` says that it returns the same otherwise. True of the number of accesses (`C132_count_partial`), false of the entries: the accesses of NewCipher tell the key (`C132_key_fails`; the first sixteen do, `C132_key_first`), those of Encrypt or Decrypt tell the key to who knows the block (`C132_known_block`) and the block to who knows the key (`C132_known_key`). With cache lines of 64 bytes instead of entries, the first four tell sixteen bits of the key (`C132_lines`). Proved by solving the linear equations of the first four steps, and by running the key schedule backwards. Not modelled: time, and the order in which a compiler evaluates the four reads in one expression.
* **C133 Whether AesDecrypt accepts a ciphertext tells nothing about messages** - False of the code: `C133_disclosed_fails` says that the answers to 256 questions on each block (the block alone, with an iv whose last byte varies) tell the length of the message and every sixteenth byte. `C133_answer_partial` gives what one answer tells: whether the last byte of the result is at most the length, and nothing else (the other padding bytes are not looked at, C08). Proved with the laws of the block cipher only; `cbcDec_last` gives the last byte of each block by induction on the number of blocks.
* **C134 Repeated random numbers do not disclose the private key** - False of Vrf: its nonce is the random number alone, so two different proofs made with the same number give the key by one division (`C134_repeated_fails`), and so does one proof with a known number (`C134_known_fails`); both from the linear equation between nonce, key, challenge and response (`vrf_equation`, from `vrf_made`). For SM2 signatures `C134_sm2_partial` (from C93): with the same random bytes and different digests the nonces come from streams whose keys are hashes of different strings. ECDSA and Ed25519 are in the standard library and are not modelled in that detail.
* **C135 A signature is accepted under one key** - False for XwithECDSA and for Ethereum keys: `C135_second_key_fails` and `C135_eth_second_key_fails` give the second key as a formula, `C135_any_message` a key for every other message; `C135_transfer` and `C135_keys_partial` say under which keys a pair (r, s) is accepted. Proved for compact secp256k1 signatures (`C135_compact`); for SM2 reduced to a condition on a hash value of the key (`C135_sm2_partial`). In Props/Signer.lean.
* **C136 A signature is accepted under one scheme** - False for schemes named XwithECDSA: `C136_two_schemes_fails` makes key and signature for any message and any two such schemes. `C136_ecdsa_partial`: it happens only with equal digests, with a key that the signature discloses, or with two x-coordinates equal modulo the order. `C136_kinds`: no other pair of schemes is possible, for any messages. `C136_compact`: compact signatures of secp256k1 keys show equal digests (uses `RecoversFromPoint`, see C97). In Props/Signer.lean and Props/Compact.lean.
* **C137 A key survives its whole life on amd64** - The key package and the signature package are instantiated with the model of sm2/p256_amd64.go (`Keypair.amd64`, `Signature.amd64`); storage by induction over the calls as for C103, signing from C86. Partial as C103 is, and in the conditions of C83 and C86 on the operands of the SM2 curve. In Props/Amd64Life.lean.
* **C138 Different messages have different VRF values** - `C138_equal_iff`: the values are equal exactly if the hash points have the same x-coordinate; `C138_collision`: then two different hashed strings among the first hundred of each message collide; `C138_accepted` for accepted values, up to the guessed challenge of C110; `C138_separate`: strings hashed to points and strings hashed to challenges differ unless the public key is the base point. In Props/VRFInjective.lean.
* **C139 A failed call leaves memory as it was** - The calls byte by byte with the memory that remains (Model/Crash.lean). False in two cases, with proved witnesses: SM4 with a short dst leaves the first bytes of the block there, AesEncrypt pads in the spare capacity before it panics because of the iv. The partial theorems give the exact memory in every case. In Props/Crash.lean.
* **C140 A parsed key protects what is signed with it or encrypted for it** - False, with proved witnesses: under the parsed key (0, 0) everyone makes accepted signatures for every message and id; ciphertexts for a parsed key (x, 0) are masked with one of two masks that everyone can compute. On P-384, P-521 and the SM2 curve the parsed key (0, 0) accepts the pair (x(G), digest) as ECDSA signature of every message with a nonzero digest (Props/GoECDSA). Proved from the curve methods of Model/Generic, which compute on the curve with another constant if the key is off the curve. On amd64 encryption for (x, 0) fails in the same way, with no assumption on the exactness of the arithmetic; the signatures are refused there unless r + s is 1 modulo the order (Lemmas/P256Flat, Props/BadKeysAmd64). Partial theorem: a key parsed from compressed bytes is a point of full order with a y-coordinate other than 0. That nobody can forge or read in the remaining cases is a computational assumption outside the model. In Props/BadKeys.lean.
* **C141 ECDSA signatures of this package are those of the standard, with the library code included** - ecdsa.Sign and ecdsa.Verify written out (Model/GoECDSA): hash truncation, nonce, the inverses by Fermat and by extended Euclid, optional curve methods. Proved equal to Spec/ECDSA from the group law, so that the laws `ecdsa_sign` and `ecdsa_verify` that Spec/Signature assumes are theorems about that code; with C114 nothing is left to assume for three curves. In Props/GoECDSA.lean.
* **C142 ECDSA nonces depend on key, random bytes and digest, and are close to uniform** - On Model/GoECDSA: the read of the stream that made the signature is followed through the loops; the seed string is shown to be injective; the strings that give a nonce are counted. Props/ECDSANonce.lean, which also has the ECDSA part of C134.
* **C143 ECDSA with keys on the SM2 curve on amd64** - On Model/GoECDSA with the amd64 methods of Model/P256Mult: verification is reduced to the combined multiplication (C84) and the inverse, signing to the multiplication of the base point (C83). A signature that is valid and rejected is given. Props/GoECDSAAmd64.lean.
* **C144 A changed protected key is accepted only for few hash keys** - AES-GCM written out (Model/GoGCM). Its blocks are shown to be the field with 2^128 elements: Rabin's test, computed in the kernel with the multiplication of the model, shows that the polynomial is irreducible (Lemmas/GF128). GHASH is a polynomial in the hash key that determines its inputs, so that two inputs agree for few hash keys (Lemmas/GHash). The laws assumed of GCM elsewhere are proved as well. Props/GCM.lean.
* **C145 A protected key tells nothing about the private key but its kind** - On Model/GoGCM: the encrypted key is the secret covered by a keystream that depends on password, salt, parameters and length only. The two ways in which the property fails are proved: the length, and equal salts. That the keystream looks random is an assumption on AES and scrypt outside the model. Props/GCM.lean.
* **C146 AES with the library code included** - AES as in FIPS 197 (Model/GoAES): each step is inverted by its inverse step, the column mixing by linearity over the bytes, then induction over the rounds. The S-box table is shown to be the inverse in the field of 256 elements followed by the affine map. Known answers of FIPS 197, SP 800-38A and the GCM specification are examples. Props/GoAES.lean.
* **C147 What ciphertexts tell about messages** - Induction over the blocks of CBC with the injectivity of the block cipher, proved of AES in C146. The contents are not secret in the two cases, so the claim is partial; that nothing more leaks is not a theorem of a model without probabilities. Props/AESLeak.lean.
* **C148 Only the password decrypts** - scrypt, PBKDF2, HMAC and SHA-256 as in their standards (Model/GoScrypt, with known answers evaluated by the kernel): the derivation sees the password only as an HMAC key, which is filled with zeros or hashed. From equal derived keys the colliding inputs of the outer hash are read off. Props/GoScrypt.lean.
* **C149 Unsuitable parameters of the key derivation give an error** - The checks of scrypt.Key in the version that go.mod names (it divides by p and by r before it has looked whether they are zero), with truncated division and the product modulo 2^64; exact case analysis. Props/GoScrypt.lean.
* **C150 Protected keys with all library code included** - The laws of ProtExt are proved of Model/GoScrypt, Model/GoAES and Model/GoGCM together; the default parameters pass the checks of scrypt. Props/GoScrypt.lean.
* **C151 The texts of exported keys** - SHA-256 (Model/GoScrypt) and base58 (Model/Wif) written out, so nothing is assumed. The number lies in an interval in which the first of 52 digits is 18 or 19; decoding is inverted up to leading zeros. Props/WifText.lean.
* **C152 Compact signatures with the recovery code of btcec** - btcec.RecoverCompact written out (Model/GoCompact) over curve operations that meet their contract. The square root is characterised, then the scalar equation is solved for the key. Props/GoCompact.lean.
* **C153 Verify does not panic on compact signatures** - The order as an x-coordinate is one of a point of the curve and zero is not (evaluated by the kernel), so the inverse of r that does not exist is reached. Exact condition, witness through Deserialize, and absence of a panic otherwise. Props/GoCompact.lean.
* **C154 Signing with secp256k1 keys, with the code of btcec** - btcec.SignCompact written out (Model/GoCompactSign), the nonce of RFC 6979 a parameter. Soundness from the check in its loop; completeness from C152: the point of the nonce, or its opposite when s was made low, is named by one of the four headers. Props/GoCompactSign.lean.
* **C155 Compact signatures use the nonces of RFC 6979** - nonceRFC6979 of btcec written out (Model/RFC6979) over HMAC and SHA-256 of Model/GoScrypt, against section 3.2 of the RFC (Spec/RFC6979), with the published example evaluated by the kernel. Termination of the loop is not claimed: it is bounded by a number of rounds. Props/RFC6979.lean.
* **C156 Ethereum signatures built on btcec meet what is relied on** - crypto.Sign and crypto.VerifySignature of go-ethereum without cgo written out (Model/GoEth) on the compact signing of C154 and the ecdsa.Verify of C141; the laws assumed of them are proved. Props/GoEth.lean.

## Trusted base

### Logic

* Lean 4.33.0 kernel. Every theorem of `Verif.Props` depends on propext, Classical.choice and Quot.sound at most (`#print axioms`); no axioms are added, no sorry, no native_decide, no bv_decide. Concrete witnesses and finite tables are evaluated by the kernel (`decide +kernel`).
* Mathlib for ZMod, elliptic curve groups (`WeierstrassCurve.Affine.Point`), Legendre symbols and finite sums.

### The model

The model is a hand-made reading of the Go source; `Model/P256Code.lean` is generated from the assembly file by `tools/asm2lean.py`. Trusted: that each definition says what the cited lines do.

| file | model | not modelled |
|---|---|---|
| sm3/*.go | Model/SM3: whole package as a state machine over the digest; Model/SM3Heap: Write and Sum on the memory of the caller | `Size`, `BlockSize` constants' use by callers |
| sm4/*.go | Model/SM4: whole package, dst/src as slices of one heap; Model/SM4Trace: the same with the table indices read (C132); Model/SM4Sched: `cryptBlock` in single steps, with the bytes written before a panic | memory is sequentially consistent (no data races under the discipline of C105) |
| aes/aes.go | Model/AES: whole package, slices with capacity; Model/Crash: the memory after an error or a panic | crypto/aes and the cbc mode are parameters with laws |
| ec/key.go, ec/decompress.go | Model/EC: whole files; with a random source that fails in Model/RandFail; SM2 keys with the base multiplication of amd64 in Model/KeypairAmd64 | `rand.Prime` is a list of draws; `ConstructPrivateKey`'s fields are naturals |
| keypair/key.go, ecurves.go, publist.go | Model/Keypair, Model/KeyHeap (parsing, with sharing), Model/SerialHeap (serializing, encrypting and decrypting on a heap), Model/RandFail (a random source that fails), Model/SortProg (sorting, call by call) | reflection-only parts (fmt of error texts); Ed25519 and go-ethereum keys are byte strings |
| keypair/wif.go | Model/Wif, Model/WifHeap (buffers on a heap) | logging of the error text |
| keypair/encrypt.go | Model/Protect; the JSON form of the structs in Model/ProtectJSON | the text of JSON (braces, escapes); secrets are not erased from memory in the code, nor in the model |
| signature/*.go | Model/Signature, Model/SigNil (values with nil parts) | typed nil keys |
| sm2/curves.go | Model/SM2Curve: initialisation under all schedules of goroutines | weak memory: memory is sequentially consistent |
| sm2/signature.go, encryption.go | Model/SM2; with a hash object with state in Model/SM2Hasher; with the output of `fmt.Println` in Model/SM2Print | curve methods are parameters, filled by `SM2.amd64` in Props/P256Curve |
| sm2/p256_amd64.go | Model/P256Mult: whole file, values instead of slices | |
| sm2/p256_amd64.go, on memory | Model/P256Prog: the same methods as sequences of routine calls on one memory; Model/P256Sched: goroutines that run them instruction by instruction | math/big values are not in memory; initTable's table is at a fixed address (the code allocates it); CF, ZF and registers between two calls are arbitrary |
| sm2/p256_asm_amd64.s | Model/X64 (instruction semantics), P256Code (instructions), P256Select (loops), P256OrdSqr (the routine that is not called) | the `p256_sm2Mul` that starts at line 640 is inside a comment |
| methods of elliptic.CurveParams (standard library, embedded by sm2/curves.go:43) | Model/Generic | as in Go 1.12 to 1.18; before 1.17.7 `IsOnCurve` has no range check (both covered) |
| go-ethereum crypto.Sign and crypto.VerifySignature (called by signature/signature.go) | Model/GoEth | the version without cgo, transcribed from knowledge of the library, whose source is not in the sandbox; the comparison of curve objects and the form with compressed public keys are left out |
| btcec RecoverCompact and SignCompact (called by signature/secp256k1.go) | Model/GoCompact, Model/GoCompactSign, Model/RFC6979 | as in btcd v0.22.0-beta, which go.mod names; its source is not in the sandbox, so this is a transcription from knowledge of that version; curve operations are a parameter with their contract; the nonces are a parameter in GoCompactSign and written out in RFC6979 |
| golang.org/x/crypto scrypt, pbkdf2 and crypto/hmac, sha256 (called by keypair/encrypt.go) | Model/GoScrypt | as in RFC 7914, 8018, 2104 and FIPS 180-4, with the checks of parameters of the version in go.mod on a 64-bit machine; memory that runs out is not modelled |
| crypto/aes (standard library, called by aes/aes.go and keypair/encrypt.go) | Model/GoAES | as in FIPS 197; that the tables and processor instructions of the library compute the same is not modelled |
| crypto/cipher GCM and CTR (standard library, called by keypair/encrypt.go) | Model/GoGCM | as in NIST SP 800-38D, nonces of 12 bytes; the block cipher is a parameter; the limit of 2^36 - 32 bytes is not modelled |
| crypto/ecdsa Sign and Verify (standard library, called by signature/signature.go) | Model/GoECDSA | as in Go 1.12 to 1.18; the byte that MaybeReadByte may read, and the number of nonces tried, are arguments |
| math/big objects in ec/key.go, ec/decompress.go, keypair/key.go, signature/signature.go, sm2/signature.go, sm2/encryption.go, sm2/p256_amd64.go, vrf/vrf_ec.go | Model/Big, Model/BigProg, Model/BigAmd64, Model/BigKeys: the functions on a memory of number objects that goroutines share | each method of math/big is one read of each argument and one write of the result; curve methods read their arguments and return new numbers (proved of the SM2 methods on amd64, C122) |
| vrf/*.go | Model/VRF; `Evaluate` and `ProofToHash` with a hash object with state in Model/VRFHasher; with the curve methods of amd64 in Model/VRFAmd64 | vrf_pbc.go has no code |

Timing, allocation, stack depth and finalisation are not modelled. `int` is unbounded except where the code converts it (byte, uint32, uint64): lengths are below 2^63 on every machine that can hold the arguments.

### External code

Parameters, each with the laws assumed of it next to its definition (structures `Lawful`, `LawfulBase`, ...) and a concrete instance that meets them: crypto/aes, crypto/sha256, crypto/sha512, AES-GCM, AES-CTR, scrypt (these written out in Model/GoAES, GoGCM and GoScrypt where protected keys and AesEncrypt use them, with the laws proved: C146, C150), ed25519, crypto/ecdsa, crypto/elliptic curve methods, btcec, go-ethereum/crypto, base58, crypto/rand, sort.Sort. C97_compact and C136_compact take one further law of btcec as a hypothesis (`RecoversFromPoint`). Written out from their documented behaviour: math/big, strings.EqualFold, encoding/json (members of objects), encoding/base64, unicode/utf8, elliptic.Marshal and Unmarshal, sync.Once, append and copy on slices. Nothing computational (collision resistance, unforgeability, randomness) is assumed anywhere; properties that need it are stated up to the point where it would start.

For the SM2 curve on amd64 the laws of the curve methods assumed by C38 to C48 are false for some inputs (C57, C84). On other platforms the generic code of crypto/elliptic is used (`elliptic.CurveParams`); it is written out in Model/Generic and the laws are proved of it (C114), so that there only the formulas as transcribed from the standard library are trusted. The same holds for P-384 and P-521; for P-224, P-256 (crypto/elliptic) and secp256k1 (btcec) the laws stay assumptions. Likewise crypto/ecdsa is a parameter of the signature model, but its Sign and Verify are also written out and the laws proved of them (C141). C85 and C86 restate verification and signing for the amd64 methods without assuming the laws.

### amd64 instruction semantics

* Registers and memory are 64-bit words; memory is accessed at 8-byte aligned addresses only; the frame of a routine and its arguments are separate from memory.
* Flags CF and ZF only; no other flag is read by the routines.
* SSE instructions (MOVOU, PAND, PXOR, PCMPEQL, PSHUFD, MOVL) on four 32-bit lanes.
* CALL and RET are inlined, the two loops are run with fuel and shown to end.
* Field and order constants are those of the DATA lines of the file.
* In Model/P256Mult a call from Go is the assignment of a value. This is justified by the routine theorems, which hold from every machine state and for any overlap of the arguments (C52, C53, C78 to C82), and which show that nothing else is written; C88 proves it for the whole methods.
* Concurrency (C89, C90): memory is sequentially consistent, a step is one instruction (or one word of a copy or store in Go code); sync.Once is written out from its documented behaviour; that arrays of different calls do not overlap, and that the rest of the program does not write them, is assumed of the Go runtime (`Allowed`).

## Where the code does not meet a property

Each is a theorem with a concrete witness; the property is claimed as partial.

* C08, C09: AES-CBC unpadding accepts malformed padding and panics on empty input; encryption writes into the spare capacity of the caller's plaintext slice.
* C12, C14: uncompressed public keys are not checked to be on the curve; trailing bytes and unreduced x are accepted.
* C18, C19, C63: parsing a private key panics on some inputs, returns (nil, nil) for unknown tags, and accepts scalars out of range.
* C20: ComparePublicKey ignores y.
* C25, C65: the version and compression bytes of a WIF are not checked; short ones panic.
* C27, C28, C66, C68: the legacy CTR mode is not authenticated; an empty password encrypts but does not decrypt; metadata is not bound; Ethereum keys panic.
* C30, C31, C35, C37, C59, C60: SM2 ids with zero bytes are lost; Serialize panics on deserialized signatures; Verify panics on short Ethereum signatures; the conversion overwrites its argument; empty messages never verify; 32-byte messages are hashed inconsistently.
* C36, C23: U+017F is folded to s in names.
* C39 to C43, C69, C70: identity hash and KDF input drop leading zero bytes; private key n-1 makes Sign diverge; encryption of the empty message diverges; short ciphertexts panic; unauthenticated plaintext is returned with the error.
* C48: VRF verification overwrites the value Vrf returned.
* C50: an EC private key 0 can be generated.
* C56, C57, C84, C85: on amd64 the subtraction can return the wrong residue for operands of p or more, which it produces itself; ScalarMult(P, n-6) is (0, 0) for every P; CombinedMult is wrong when a scalar is 0 modulo n or the two multiples are equal; so valid signatures with r+s = n-6 are rejected. A point and the scalar 30 for which ScalarMult is wrong: `C57_wrong_point`.
* C120: on amd64 the private key n-6 cannot decrypt what is encrypted for it, everyone can decrypt what it accepts, and its VRF value is constant and never verifies.
* C61: the Lucas U component is wrong at even indices (not used there).
* C92: the identity hash appends coordinates without leading zeros, so (0x0102, 0x03) and (0x01, 0x0203) are not told apart.
* C95, C96, C97: signatures made of two numbers have encodings padded with zeros; (r, n - s) is accepted with (r, s) for ECDSA; bytes after the first 64 of an Ethereum signature are ignored; an Ethereum signature on m is one on keccak256(m); for any two messages there is a key with a common ECDSA signature.
* C99: an Ed25519 private key and a compact ECDSA signature share memory with the buffer they were parsed from.
* C115, C116: the method Public of an Ethereum private key returns a type that the library does not know, so the result cannot be serialized, compared or used to verify; FromEthereumPrivateKey accepts keys on any curve, whose serialization is parsed as another key.
* C139: an SM4 call that panics because of a short dst has filled it with the first bytes of the block; AesEncrypt writes the padding behind the plaintext before it panics because of the iv.
* C140: on platforms without assembly the parsed SM2 key (0, 0) accepts signatures that everyone can make, and so do the ECDSA keys (0, 0) on P-384 and P-521, and on all platforms ciphertexts for a key (x, 0) can be read by everyone.
* C145: the length of a protected key tells the number of leading zero bytes of the private key; with a repeated salt and password one known key gives the other.
* C147: with an iv repeated under a key, two ciphertexts of AesEncrypt agree in their first blocks exactly as far as the messages do; equal ciphertext blocks tell the difference of two message blocks.
* C148: a protected key is decrypted also by its password with zero bytes added (up to 64 bytes), or by the SHA-256 digest of its password if that has more than 64 bytes.
* C149: EncryptWithCustomScrypt and DecryptWithCustomScrypt panic (division by zero in scrypt) for parameters with a zero P, or a zero R and a positive P.
* C151: WIF2Key accepts an exported text also with any number of characters 1 before it.
* C153: Verify panics on compact signatures with r equal to the order of secp256k1; C96: the header and s of compact signatures can be changed.
* C143: on amd64 Verify with an ECDSA scheme and a key on the SM2 curve rejects some valid signatures.
* C77: EncodePublicKey panics on coordinates that are too long by more than a byte, and maps different oversize points to one encoding.

Observed, outside the stated properties: `p256_sm2OrdSqr` (not called) lacks multiplications and is wrong (C54_ordSqr_wrong); `Inverse` of a negative number is the inverse of its absolute value.
