import Verif.Props.GoAES
import Verif.Model.GoScrypt
import Mathlib.Tactic.Linarith
/-!
# C148, C149, C150: protected keys with the library code of the key derivation included
-/
namespace Verif.Props
open Verif.Keypair Verif.Scrypt

/-- The code that keypair/encrypt.go calls, all of it written out: scrypt, AES-GCM, AES-CTR and SHA-256. -/
def fullProt : ProtExt where
  scrypt := Scrypt.key
  gcmSeal k := GCM.sealText (GoAES.aes.enc k)
  gcmOpen k := GCM.openText (GoAES.aes.enc k)
  ctrStream k := GCM.ctrStream (GoAES.aes.enc k)
  sha256 := Scrypt.sha256

theorem sha256_length (m : Bytes) : (sha256 m).length = 32 := by
  unfold sha256
  simp only [List.length_append, beFix_length]

theorem pbkdf2_length (pwd salt : Bytes) (len : Nat) : (pbkdf2 pwd salt len).length = len := by
  unfold pbkdf2
  rw [List.length_take, List.length_flatMap]
  have : ((List.range ((len + 31) / 32)).map fun i => (hmac pwd (salt ++ beFix 4 (i + 1))).length).sum = (len + 31) / 32 * 32 := by
    rw [List.map_congr_left (g := fun _ => 32) (fun i _ => by unfold hmac; exact sha256_length _)]
    simp
  rw [this]
  omega

theorem key_ok {pwd salt : Bytes} {N r p len : Int} {d : Bytes} (h : key pwd salt N r p len = .ok d) :
    0 ≤ len ∧ d = derive pwd salt N.toNat r.toNat p.toNat len.toNat := by
  unfold key at h
  by_cases h1 : N ≤ 1 ∨ N.toNat &&& (N.toNat - 1) ≠ 0
  · rw [if_pos h1] at h; cases h
  rw [if_neg h1] at h
  by_cases h2 : (r * p) % 2 ^ 64 ≥ 2 ^ 30
  · rw [if_pos h2] at h; cases h
  rw [if_neg h2] at h
  by_cases h3 : p = 0
  · rw [if_pos h3] at h; cases h
  rw [if_neg h3] at h
  by_cases h4 : r > (maxInt.tdiv 128).tdiv p
  · rw [if_pos h4] at h; cases h
  rw [if_neg h4] at h
  by_cases h5 : r > maxInt.tdiv 256
  · rw [if_pos h5] at h; cases h
  rw [if_neg h5] at h
  by_cases h6 : r = 0
  · rw [if_pos h6] at h; cases h
  rw [if_neg h6] at h
  by_cases h7 : N > (maxInt.tdiv 128).tdiv r
  · rw [if_pos h7] at h; cases h
  rw [if_neg h7] at h
  by_cases h8 : len < 0
  · rw [if_pos h8] at h; cases h
  rw [if_neg h8] at h
  cases h
  exact ⟨by omega, rfl⟩

/-! ## C150 -/

/-- **C150** The library code as it is written out has all the properties that are assumed of it. -/
theorem C150_lawful : fullProt.Lawful := by
  have h : (withAES fullProt).Lawful := C146_protected fullProt (by
    intro pwd salt N R P L d h
    obtain ⟨h1, rfl⟩ := key_ok h
    unfold derive
    rw [pbkdf2_length]
    omega)
  exact h

theorem quot_le {a b : Int} (hb : 0 < b) (ha : 0 ≤ a) (n : Int) : n > a.tdiv b ↔ a < n * b := by
  rw [Int.tdiv_eq_ediv_of_nonneg ha]
  constructor
  · intro h; exact Int.lt_mul_of_ediv_lt hb h
  · intro h; exact Int.ediv_lt_of_lt_mul hb h

theorem quot_neg {a b : Int} (hb : b < 0) (ha : 0 ≤ a) : a.tdiv b ≤ 0 := by
  have : a.tdiv b = -(a.tdiv (-b)) := by rw [Int.tdiv_neg]; omega
  rw [this]
  have := Int.tdiv_nonneg ha (show 0 ≤ -b by omega)
  omega

theorem pow_iff (N : Int) : ¬ (N ≤ 1 ∨ N.toNat &&& (N.toNat - 1) ≠ 0) ↔ ∃ j, 1 ≤ j ∧ N = 2 ^ j := by
  constructor
  · intro h
    simp only [not_or, not_not] at h
    obtain ⟨h1, h2⟩ := h
    obtain ⟨j, hj⟩ := (Nat.and_sub_one_eq_zero_iff_isPowerOfTwo (show N.toNat ≠ 0 by omega)).1 h2
    have e : N = 2 ^ j := by
      have : (N.toNat : Int) = ((2 ^ j : Nat) : Int) := by rw [hj]
      rw [Int.toNat_of_nonneg (by omega)] at this
      rw [this]; push_cast; rfl
    refine ⟨j, ?_, e⟩
    by_contra hc
    obtain rfl : j = 0 := by omega
    rw [e] at h1
    simp at h1
  · rintro ⟨j, hj, rfl⟩
    have e : ((2 : Int) ^ j).toNat = 2 ^ j := by
      have : ((2 : Int) ^ j) = ((2 ^ j : Nat) : Int) := by push_cast; rfl
      rw [this, Int.toNat_natCast]
    have h2 : (2 : Nat) ≤ 2 ^ j := by
      calc 2 = 2 ^ 1 := rfl
        _ ≤ 2 ^ j := Nat.pow_le_pow_right (by omega) hj
    simp only [not_or, not_not]
    constructor
    · omega
    · rw [e]
      exact (Nat.and_sub_one_eq_zero_iff_isPowerOfTwo (by omega)).2 ⟨j, rfl⟩

/-- What `scrypt.Key` does, by its parameters. -/
inductive Verdict | good | crash | refused
  deriving DecidableEq

/-- The outcome without the key. -/
def verdict : Res Bytes → Verdict
  | .ok _ => .good
  | .panic _ => .crash
  | .err _ => .refused

theorem key_verdict (pwd salt : Bytes) (N r p len : Int) (hl : 0 ≤ len) :
    (verdict (key pwd salt N r p len) = .good ↔ (∃ j, 1 ≤ j ∧ N = 2 ^ j) ∧ 0 < r ∧ 0 < p ∧ r * p < 2 ^ 30 ∧ N * r < 2 ^ 56) ∧
    (verdict (key pwd salt N r p len) = .crash ↔ (∃ j, 1 ≤ j ∧ N = 2 ^ j) ∧ (p = 0 ∨ r = 0 ∧ (0 < p ∨ p ≤ -2 ^ 56))) := by
  have hm1 : maxInt.tdiv 128 = 2 ^ 56 - 1 := by decide
  have hm2 : maxInt.tdiv 256 = 2 ^ 55 - 1 := by decide
  unfold key
  rw [hm1, hm2, ← pow_iff]
  by_cases h1 : N ≤ 1 ∨ N.toNat &&& (N.toNat - 1) ≠ 0
  · rw [if_pos h1]
    simp only [verdict, reduceCtorEq, false_iff]
    exact ⟨fun h => h.1 h1, fun h => h.1 h1⟩
  rw [if_neg h1]
  simp only [h1, not_false_eq_true, true_and]
  have hN : 1 < N := by omega
  generalize hK : (2 : Int) ^ 56 - 1 = K
  have hK0 : 0 < K := by omega
  by_cases h3 : p = 0
  · subst h3
    simp [verdict]
  by_cases h2 : (r * p) % 2 ^ 64 ≥ 2 ^ 30
  · rw [if_pos h2]
    simp only [verdict, reduceCtorEq, false_iff]
    constructor
    · rintro ⟨a, b, c, -⟩
      have : 0 < r * p := Int.mul_pos a b
      rw [Int.emod_eq_of_lt (by omega) (by omega)] at h2
      omega
    · rintro (a | ⟨a, -⟩)
      · exact h3 a
      · rw [a] at h2; simp at h2
  rw [if_neg h2, if_neg h3]
  by_cases h4 : r > K.tdiv p
  · rw [if_pos h4]
    simp only [verdict, reduceCtorEq, false_iff]
    constructor
    · rintro ⟨a, b, c, -⟩
      rw [quot_le b hK0.le] at h4
      omega
    · rintro (a | ⟨a, b | b⟩)
      · exact h3 a
      · rw [a, quot_le b hK0.le] at h4
        omega
      · have : K.tdiv p = 0 := by
          have e : K.tdiv p = -(K.tdiv (-p)) := by rw [Int.tdiv_neg]; omega
          rw [e, Int.tdiv_eq_ediv_of_nonneg hK0.le, Int.ediv_eq_zero_of_lt hK0.le (by omega)]
          rfl
        omega
  rw [if_neg h4]
  have h4' : 0 < p → r * p ≤ K := fun b => by
    rw [quot_le b hK0.le] at h4; omega
  by_cases h5 : r > 2 ^ 55 - 1
  · rw [if_pos h5]
    simp only [verdict, reduceCtorEq, false_iff]
    constructor
    · rintro ⟨a, b, c, -⟩
      nlinarith
    · rintro (a | ⟨a, -⟩)
      · exact h3 a
      · omega
  rw [if_neg h5]
  by_cases h6 : r = 0
  · rw [if_pos h6]
    subst h6
    simp only [verdict, true_iff, reduceCtorEq, false_iff, true_and]
    constructor
    · rintro ⟨a, -⟩; omega
    · right
      by_contra hc
      have hp : p < 0 := by omega
      apply h4
      have e : K.tdiv p = -(K.tdiv (-p)) := by rw [Int.tdiv_neg]; omega
      rw [e, Int.tdiv_eq_ediv_of_nonneg hK0.le]
      have : 1 ≤ K / -p := by
        rw [Int.le_ediv_iff_mul_le (by omega)]
        omega
      omega
  rw [if_neg h6]
  by_cases h7 : N > K.tdiv r
  · rw [if_pos h7]
    simp only [verdict, reduceCtorEq, false_iff]
    constructor
    · rintro ⟨a, b, c, d⟩
      rw [quot_le a hK0.le] at h7
      omega
    · rintro (a | ⟨a, -⟩)
      · exact h3 a
      · exact h6 a
  rw [if_neg h7, if_neg (by omega)]
  have hr : 0 < r := by
    by_contra hc
    have := quot_neg (show r < 0 by omega) hK0.le
    omega
  have hp : 0 < p := by
    by_contra hc
    have := quot_neg (show p < 0 by omega) hK0.le
    omega
  rw [quot_le hr hK0.le] at h7
  have := h4' hp
  have := Int.mul_pos hr hp
  rw [Int.emod_eq_of_lt (by omega) (by omega)] at h2
  simp only [verdict, true_iff, reduceCtorEq, false_iff]
  refine ⟨⟨hr, hp, by omega, by omega⟩, ?_⟩
  rintro (a | ⟨a, -⟩)
  · exact h3 a
  · exact h6 a

theorem kdf_full (pwd salt : Bytes) (param : ScryptParam) (h : 32 ≤ param.DKLen) :
    kdf fullProt pwd salt param = key pwd salt param.N param.R param.P param.DKLen := by
  unfold kdf
  rw [if_neg (by omega)]
  rfl

theorem verdict_good {r : Res Bytes} : verdict r = .good ↔ ∃ d, r = .ok d := by
  cases r <;> simp [verdict]

theorem verdict_crash {r : Res Bytes} : verdict r = .crash ↔ ∃ m, r = .panic m := by
  cases r <;> simp [verdict]

/-- **C150** What `EncryptPrivateKey` returns for any supported key, address, password and salt is decrypted to the key by
`DecryptPrivateKey`, and nothing is assumed of the library code. -/
theorem C150_roundtrip (E : Ext) (hE : GoodName E.k1name) (k : PrivateKey) (hk : Exportable E k) (addr pwd salt : Bytes)
    (hpwd : pwd ≠ []) : ∃ prot, encryptPrivateKey fullProt k addr pwd (.ok salt) = .ok prot ∧ prot.address = addr ∧
      decryptPrivateKey E fullProt (some prot) pwd = .ok k := by
  obtain ⟨d, hd⟩ := verdict_good.1 ((key_verdict pwd salt 16384 8 8 64 (by omega)).1.2 ⟨⟨14, by omega, by norm_num⟩, by norm_num⟩)
  exact (C26_protect_roundtrip E hE fullProt C150_lawful k hk addr pwd salt getScryptParameters hpwd).1 d
    (by rw [kdf_full _ _ _ (by decide)]; exact hd)

/-! ## C149 -/

/-- **C149** (partial) The parameters with which a supported key can be encrypted, exactly. Missing: other parameters do not always
give an error, see below. -/
theorem C149_accepted_partial (E : Ext) (hE : GoodName E.k1name) (k : PrivateKey) (hk : Exportable E k) (addr pwd salt : Bytes)
    (param : ScryptParam) : (∃ prot, encryptWithCustomScrypt fullProt k addr pwd param (.ok salt) = .ok prot) ↔
      32 ≤ param.DKLen ∧ (∃ j, 1 ≤ j ∧ param.N = 2 ^ j) ∧ 0 < param.R ∧ 0 < param.P ∧ param.R * param.P < 2 ^ 30 ∧
        param.N * param.R < 2 ^ 56 := by
  have enc : (∃ prot, encryptWithCustomScrypt fullProt k addr pwd param (.ok salt) = .ok prot) ↔
      ∃ d, kdf fullProt pwd salt param = .ok d := by
    obtain ⟨p, alg, curve, hb, -⟩ := exportable_body E hE hk
    constructor
    · rintro ⟨prot, h⟩
      cases hd : kdf fullProt pwd salt param with
      | ok d => exact ⟨d, rfl⟩
      | err m => unfold encryptWithCustomScrypt at h; simp [hd] at h
      | panic m => unfold encryptWithCustomScrypt at h; simp [hd] at h
    · rintro ⟨d, hd⟩
      exact ⟨_, by rw [encrypt_eq C150_lawful k addr pwd salt param hd, hb]⟩
  rw [enc]
  by_cases hl : 32 ≤ param.DKLen
  · rw [kdf_full _ _ _ hl, ← verdict_good, (key_verdict _ _ _ _ _ _ (by omega)).1]
    simp [hl]
  · unfold kdf
    rw [if_pos (by omega)]
    simp [hl]

/-- **C149** is false of the code: the parameters with which encryption of a supported key panics, exactly. They are those with a
zero `P`, and those with a zero `R` and a `P` that is positive (or far below zero). -/
theorem C149_panics_fails (E : Ext) (hE : GoodName E.k1name) (k : PrivateKey) (hk : Exportable E k) (addr pwd salt : Bytes)
    (param : ScryptParam) : (∃ m, encryptWithCustomScrypt fullProt k addr pwd param (.ok salt) = .panic m) ↔
      32 ≤ param.DKLen ∧ (∃ j, 1 ≤ j ∧ param.N = 2 ^ j) ∧
        (param.P = 0 ∨ param.R = 0 ∧ (0 < param.P ∨ param.P ≤ -2 ^ 56)) := by
  have hn : ¬ ((∃ t, k = .eth t) ∨ k = .unknown ∨ ∃ b t, k = .ec (.other b) t) := by
    obtain ⟨p, alg, curve, hb, -⟩ := exportable_body E hE hk
    rintro (⟨t, rfl⟩ | rfl | ⟨b, t, rfl⟩) <;> simp [bodyOf] at hb
  rw [C68_encrypt_panics_iff_partial fullProt C150_lawful]
  simp only [hn, and_false, or_false]
  by_cases hl : 32 ≤ param.DKLen
  · rw [kdf_full _ _ _ hl, ← verdict_crash, (key_verdict _ _ _ _ _ _ (by omega)).2]
    simp [hl]
  · unfold kdf
    rw [if_pos (by omega)]
    simp [hl]

/-- **C149** is false of decryption too: every protected key of the current format makes it panic with these parameters. -/
theorem C149_decrypt_fails (E : Ext) (prot : ProtectedKey) (halg : prot.encAlg = "aes-256-gcm") (pwd : Bytes) (hp : pwd ≠ [])
    (param : ScryptParam) (hl : 32 ≤ param.DKLen) (hN : ∃ j, 1 ≤ j ∧ param.N = 2 ^ j)
    (h : param.P = 0 ∨ param.R = 0 ∧ (0 < param.P ∨ param.P ≤ -2 ^ 56)) :
    ∃ m, decryptWithCustomScrypt E fullProt (some prot) pwd param = .panic m := by
  obtain ⟨m, hm⟩ := verdict_crash.1 ((key_verdict pwd prot.salt param.N param.R param.P param.DKLen (by omega)).2.2 ⟨hN, h⟩)
  rw [← kdf_full _ _ _ hl] at hm
  refine ⟨m, ?_⟩
  unfold decryptWithCustomScrypt
  simp only
  rw [if_neg (by simpa using hp)]
  unfold decryptBody
  rw [if_pos halg, hm]
  rfl

/-! ## C148 -/

theorem hmac_congr {p q : Bytes} (h : hmacKey p = hmacKey q) : hmac p = hmac q := by
  funext m
  unfold hmac
  rw [h]

theorem key_congr {p q : Bytes} (h : hmacKey p = hmacKey q) : key p = key q := by
  funext salt N r P len
  have hb : ∀ s l, pbkdf2 p s l = pbkdf2 q s l := by
    intro s l; unfold pbkdf2; rw [hmac_congr h]
  have hd : ∀ n r P l, derive p salt n r P l = derive q salt n r P l := by
    intro n r P l
    unfold derive
    simp only [hb]
  unfold key
  rw [hd]

theorem decrypt_congr_pwd {p q : Bytes} (h : hmacKey p = hmacKey q) (hp : p ≠ []) (hq : q ≠ []) (E : Ext)
    (prot : Option ProtectedKey) (param : ScryptParam) :
    decryptWithCustomScrypt E fullProt prot q param = decryptWithCustomScrypt E fullProt prot p param := by
  have hk : ∀ s, kdf fullProt q s param = kdf fullProt p s param := by
    intro s
    unfold kdf
    rw [show fullProt.scrypt = key from rfl, key_congr h]
  unfold decryptWithCustomScrypt
  cases prot with
  | none => rfl
  | some prot =>
    simp only
    rw [if_neg (by simpa using hq), if_neg (by simpa using hp)]
    unfold decryptBody
    simp only [hk]

theorem hmacKey_zeros (p : Bytes) (n : Nat) (h : p.length + n ≤ 64) : hmacKey (p ++ zeros n) = hmacKey p := by
  unfold hmacKey
  simp only [List.length_append, zeros_length]
  rw [if_neg (by omega), if_neg (by omega)]
  simp only [List.length_append, zeros_length, List.append_assoc]
  congr 1
  unfold zeros
  rw [List.replicate_append_replicate]
  congr 1
  omega

theorem hmacKey_long (p : Bytes) (h : 64 < p.length) : hmacKey (sha256 p) = hmacKey p := by
  unfold hmacKey
  simp only [sha256_length]
  rw [if_neg (by omega), if_pos (by omega)]

/-- **C148** is false of the code: a password with zero bytes added, up to 64 bytes, decrypts the same. -/
theorem C148_zeros_fails (E : Ext) (prot : Option ProtectedKey) (param : ScryptParam) (pwd : Bytes) (hp : pwd ≠ []) (n : Nat)
    (h : pwd.length + n ≤ 64) :
    decryptWithCustomScrypt E fullProt prot (pwd ++ zeros n) param = decryptWithCustomScrypt E fullProt prot pwd param :=
  decrypt_congr_pwd (hmacKey_zeros pwd n h).symm hp (by simp [hp]) E prot param

/-- **C148** is false of the code: in place of a password of more than 64 bytes its SHA-256 digest decrypts the same. -/
theorem C148_long_fails (E : Ext) (prot : Option ProtectedKey) (param : ScryptParam) (pwd : Bytes) (h : 64 < pwd.length) :
    decryptWithCustomScrypt E fullProt prot (sha256 pwd) param = decryptWithCustomScrypt E fullProt prot pwd param :=
  decrypt_congr_pwd (hmacKey_long pwd h).symm (by rintro rfl; simp at h)
    (by intro e; have := sha256_length pwd; rw [e] at this; simp at this) E prot param

/-- What HMAC hashes in the end, for password `pwd` and message `m`. -/
def outer (pwd m : Bytes) : Bytes := (hmacKey pwd).map (· ^^^ 0x5c) ++ sha256 ((hmacKey pwd).map (· ^^^ 0x36) ++ m)

theorem hmacKey_length (p : Bytes) : (hmacKey p).length = 64 := by
  unfold hmacKey
  simp only [List.length_append, zeros_length]
  split
  · rw [sha256_length]
  · omega

theorem zeros_tail : ∀ (p q : Bytes) (a b : Nat), p ++ zeros a = q ++ zeros b → ∃ n, p = q ++ zeros n ∨ q = p ++ zeros n := by
  intro p
  induction p with
  | nil =>
    intro q a b h
    refine ⟨q.length, .inr ?_⟩
    have : ∀ x ∈ q, x = 0 := by
      intro x hx
      have : x ∈ zeros a := by
        rw [List.nil_append] at h
        rw [h]; simp [hx]
      exact List.eq_of_mem_replicate this
    rw [List.nil_append]
    exact List.eq_replicate_iff.2 ⟨rfl, this⟩
  | cons x p ih =>
    intro q a b h
    cases q with
    | nil =>
      refine ⟨(x :: p).length, .inl ?_⟩
      rw [List.nil_append] at h ⊢
      refine List.eq_replicate_iff.2 ⟨rfl, fun y hy => ?_⟩
      have : y ∈ zeros b := by rw [← h]; exact List.mem_append_left _ hy
      exact List.eq_of_mem_replicate this
    | cons y q =>
      simp only [List.cons_append, List.cons.injEq] at h ⊢
      obtain ⟨n, hn⟩ := ih q a b h.2
      exact ⟨n, by rcases hn with hn | hn <;> simp [h.1, hn]⟩

/-- **C148** (partial) Apart from zero bytes at the end, two passwords of at most 64 bytes that derive the same bytes give two
strings of 96 bytes with the same SHA-256 digest. Missing: the passwords above, and that such strings cannot be found. -/
theorem C148_collision_partial (p q salt : Bytes) (hp : p.length ≤ 64) (hq : q.length ≤ 64) (N R P L : Int) (hL : 32 ≤ L) (d : Bytes)
    (h1 : fullProt.scrypt p salt N R P L = .ok d) (h2 : fullProt.scrypt q salt N R P L = .ok d) :
    (∃ n, p = q ++ zeros n ∨ q = p ++ zeros n) ∨
    ∃ m m', outer p m ≠ outer q m' ∧ (outer p m).length = 96 ∧ (outer q m').length = 96 ∧ sha256 (outer p m) = sha256 (outer q m') := by
  by_cases hk : hmacKey p = hmacKey q
  · left
    unfold hmacKey at hk
    rw [if_neg (by omega), if_neg (by omega)] at hk
    exact zeros_tail p q _ _ hk
  · right
    obtain ⟨-, e1⟩ := key_ok h1
    obtain ⟨-, e2⟩ := key_ok h2
    have first : ∀ w s : Bytes, ∀ l, 32 ≤ l → (pbkdf2 w s l).take 32 = hmac w (s ++ beFix 4 1) := by
      intro w s l hl
      unfold pbkdf2
      obtain ⟨k, hk⟩ : ∃ k, (l + 31) / 32 = k + 1 := ⟨(l + 31) / 32 - 1, by omega⟩
      rw [List.take_take, Nat.min_eq_left hl, hk, List.range_succ_eq_map, List.flatMap_cons]
      exact List.take_left' (sha256_length _)
    unfold derive at e1 e2
    have f1 := first p ((List.range P.toNat).flatMap fun i => smix R.toNat N.toNat (((pbkdf2 p salt (P.toNat * 128 * R.toNat)).drop (i * 128 * R.toNat)).take (128 * R.toNat))) L.toNat (by omega)
    have f2 := first q ((List.range P.toNat).flatMap fun i => smix R.toNat N.toNat (((pbkdf2 q salt (P.toNat * 128 * R.toNat)).drop (i * 128 * R.toNat)).take (128 * R.toNat))) L.toNat (by omega)
    have el : ∀ w m, (outer w m).length = 96 := by
      intro w m; unfold outer; rw [List.length_append, List.length_map, hmacKey_length, sha256_length]
    refine ⟨_, _, ?_, el _ _, el _ _, f1.symm.trans ((congrArg (List.take 32) (e1.symm.trans e2)).trans f2)⟩
    intro e
    apply hk
    have := (List.append_inj e (by simp [hmacKey_length])).1
    refine List.map_injective_iff.2 ?_ this
    intro a b hab
    have := congrArg (· ^^^ (0x5c : Byte)) hab
    simpa [BitVec.xor_assoc] using this

/-! ## The hypotheses are met -/

/-- A protected Ed25519 key, and its decryption with the password 1 and with the password 1, 0. -/
example (E : Ext) (hE : GoodName E.k1name) (salt : Bytes) : ∃ prot,
    encryptPrivateKey fullProt (.ed (zeros 64)) [] [1] (.ok salt) = .ok prot ∧
    decryptPrivateKey E fullProt (some prot) [1] = .ok (.ed (zeros 64)) ∧
    decryptPrivateKey E fullProt (some prot) [1, 0] = .ok (.ed (zeros 64)) := by
  obtain ⟨prot, h1, -, h2⟩ := C150_roundtrip E hE (.ed (zeros 64)) (by simp [Exportable]) [] [1] salt (by simp)
  exact ⟨prot, h1, h2, (C148_zeros_fails E (some prot) getScryptParameters [1] (by simp) 1 (by simp)).trans h2⟩

/-- A password of 65 bytes and its digest. -/
example (E : Ext) (hE : GoodName E.k1name) (salt : Bytes) : ∃ prot,
    encryptPrivateKey fullProt (.ed (zeros 64)) [] (zeros 65) (.ok salt) = .ok prot ∧
    decryptPrivateKey E fullProt (some prot) (sha256 (zeros 65)) = .ok (.ed (zeros 64)) := by
  obtain ⟨prot, h1, -, h2⟩ := C150_roundtrip E hE (.ed (zeros 64)) (by simp [Exportable]) [] (zeros 65) salt (by simp [zeros])
  exact ⟨prot, h1, (C148_long_fails E (some prot) getScryptParameters (zeros 65) (by simp)).trans h2⟩

/-- Parameters with which encryption and decryption panic, and parameters that are accepted. -/
example (E : Ext) (hE : GoodName E.k1name) (salt : Bytes) :
    (∃ m, encryptWithCustomScrypt fullProt (.ed (zeros 64)) [] [1] ⟨0, 16384, 8, 64⟩ (.ok salt) = .panic m) ∧
    ∃ prot, encryptWithCustomScrypt fullProt (.ed (zeros 64)) [] [1] ⟨1, 2, 1, 32⟩ (.ok salt) = .ok prot :=
  ⟨(C149_panics_fails E hE _ (by simp [Exportable]) [] [1] salt _).2 ⟨by decide, ⟨14, by omega, by norm_num⟩, .inl rfl⟩,
   (C149_accepted_partial E hE _ (by simp [Exportable]) [] [1] salt _).2 ⟨by decide, ⟨1, by omega, by norm_num⟩, by norm_num⟩⟩

/-! ## Known answers -/

/-- FIPS 180-4: SHA-256 of `abc`. -/
example : sha256 [0x61, 0x62, 0x63] = beFix 32 0xba7816bf8f01cfea414140de5dae2223b00361a396177a9cb410ff61f20015ad := by
  decide +kernel

/-- RFC 4231, test case 2: HMAC with the key `Jefe`. -/
example : hmac [0x4a, 0x65, 0x66, 0x65] ("what do ya want for nothing?".toUTF8.toList.map fun b => b.toBitVec) =
    beFix 32 0x5bdcc146bf60754e6a042426089575c75a003f089d2739839dec58b964ec3843 := by decide +kernel

/-- RFC 7914, section 12: scrypt of the empty password and salt with N = 16, r = 1, p = 1. -/
example : key [] [] 16 1 1 64 = .ok (beFix 64 0x77d6576238657b203b19ca42c18a0497f16b4844e3074ae8dfdffa3fede21442fcd0069ded0948f8326a753a0fc81f17e8d3e0fb2e0d3628cf35e20c38d18906) := by
  decide +kernel

end Verif.Props
