import Verif.Props.SM2Enc
import Verif.Props.SM3Coll
import Verif.Props.Malleable
/-!
# C124: the tag of an SM2 ciphertext determines the message
-/
namespace Verif.Props
open Verif Verif.Spec

/-- The coordinates at the beginning of a ciphertext, in reduced form. -/
def c1 (data : Bytes) : Nat × Nat :=
  (natOfBytes (data.take 32) % Curves.sm2.P, natOfBytes ((data.drop 32).take 32) % Curves.sm2.P)

/-- What is hashed for the tag: the message between the coordinates of the shared point (`y` with its leading zeros at
the end). -/
def tagInput (S : SM2.Point) (m : Bytes) : Bytes :=
  beFix 32 (xy S).1 ++ m ++ (bytesOfNat (xy S).2 ++ zeros (32 - byteLen (xy S).2))

theorem tagInput_length (S : SM2.Point) (m : Bytes) : (tagInput S m).length = 64 + m.length := by
  have := (SM2.xy_byteLen S).2
  simp [tagInput, zeros]; omega

theorem tagInput_msg {S S' : SM2.Point} {m m' : Bytes} (h : tagInput S m = tagInput S' m') : m = m' := by
  have hlen : m.length = m'.length := by
    have := congrArg List.length h
    rw [tagInput_length, tagInput_length] at this
    omega
  unfold tagInput at h
  exact (List.append_inj (List.append_inj h (by simp [hlen])).1 (by simp)).2

theorem tagInput_x {S S' : SM2.Point} {m m' : Bytes} (h : tagInput S m = tagInput S' m') : (xy S).1 = (xy S').1 := by
  unfold tagInput at h
  rw [List.append_assoc, List.append_assoc] at h
  exact beFix_inj (byteLen_le_iff.1 (SM2.xy_byteLen _).1) (byteLen_le_iff.1 (SM2.xy_byteLen _).1)
    (List.append_inj h (by simp)).1

theorem tagInput_sum {S S' : SM2.Point} {m m' : Bytes} (h : m.length < 2 ^ 60) (h' : m'.length < 2 ^ 60)
    (e : Spec.SM3.hash (tagInput S m) = Spec.SM3.hash (tagInput S' m')) :
    SM3.sumBytes (tagInput S m) = SM3.sumBytes (tagInput S' m') := by
  rw [C01_sm3_sum_conforms _ (by rw [tagInput_length]; omega), C01_sm3_sum_conforms _ (by rw [tagInput_length]; omega), e]

/-- What `Decrypt` has checked when it reports no error: bytes 64 to 95 are the SM3 value of the message between two
32-byte strings. -/
theorem accepted_tag (E : SM2.Ext) (hE : E.Lawful) (G : SM2.Point) (hG : xy G = (Curves.sm2.Gx, Curves.sm2.Gy))
    (priv : ECPriv) (hc : priv.pub.curve = Curves.sm2) (data spare m : Bytes) (hd : data.length < 2 ^ 60)
    (h : SM2.decrypt E priv data spare = .ok (some m, none)) :
    ∃ k, 1 ≤ k ∧ k < SM2.n ∧ 64 ≤ data.length ∧ xy (k • G) = c1 data ∧
      (data.drop 64).take 32 = Spec.SM3.hash (tagInput (k • priv.D • G) m) ∧ data.drop 96 = SM2.xor m (SM2.kdf (pointBytes (k • priv.D • G)) m.length) ∧ data.length = 96 + m.length := by
  obtain ⟨hl, -, k, hk1, hk, -, h1, h2⟩ := (C43_accepts_iff E hE G hG priv hc data spare m hd).mp h
  have hp : (pointBytes (k • G)).length = 64 := by simp [pointBytes, SM2.beFix_len]
  obtain ⟨-, -, -, p4, p5, -⟩ := cipher_parts (c2 := SM2.xor m (SM2.kdf (pointBytes (k • priv.D • G)) m.length))
    (spare := []) hp (hash_length (beFix 32 (xy (k • priv.D • G)).1 ++ m
        ++ (bytesOfNat (xy (k • priv.D • G)).2 ++ zeros (32 - byteLen (xy (k • priv.D • G)).2))))
  refine ⟨k, hk1, hk, hl, h1.symm, by rw [h2]; exact p4, ?_, ?_⟩
  · rw [show (96 : ℕ) = 64 + 32 from rfl, ← List.drop_drop, h2, List.drop_drop]; exact p5
  · have e := congrArg List.length h2
    rw [sm2Cipher, List.length_drop, List.length_drop, List.length_append, List.length_append, hp, hash_length, SM2.xor,
      List.length_zipWith, C44_kdf_length, Nat.min_self] at e
    omega

/-- **C124** The 32 bytes after `C1` are a commitment to the message, whatever the keys: when two private keys decrypt
two ciphertexts that agree in these bytes to different messages, then the two strings that `Decrypt` hashed are
different and have the same SM3 value. -/
theorem C124_tag_binds (E : SM2.Ext) (hE : E.Lawful) (G : SM2.Point) (hG : xy G = (Curves.sm2.Gx, Curves.sm2.Gy))
    (priv priv' : ECPriv) (hc : priv.pub.curve = Curves.sm2) (hc' : priv'.pub.curve = Curves.sm2)
    (data data' spare spare' m m' : Bytes) (hd : data.length < 2 ^ 60) (hd' : data'.length < 2 ^ 60)
    (h : SM2.decrypt E priv data spare = .ok (some m, none))
    (h' : SM2.decrypt E priv' data' spare' = .ok (some m', none))
    (ht : (data.drop 64).take 32 = (data'.drop 64).take 32) (hne : m ≠ m') :
    ∃ C C' : SM2.Point, xy C = c1 data ∧ xy C' = c1 data' ∧
      tagInput (priv.D • C) m ≠ tagInput (priv'.D • C') m' ∧
      SM3.sumBytes (tagInput (priv.D • C) m) = SM3.sumBytes (tagInput (priv'.D • C') m') := by
  obtain ⟨k, -, -, -, exy, e, -, el⟩ := accepted_tag E hE G hG priv hc data spare m hd h
  obtain ⟨k', -, -, -, exy', e', -, el'⟩ := accepted_tag E hE G hG priv' hc' data' spare' m' hd' h'
  rw [e, e', smul_comm k, smul_comm k'] at ht
  exact ⟨k • G, k' • G, exy, exy', fun heq => hne (tagInput_msg heq), tagInput_sum (by omega) (by omega) ht⟩

/-- **C124** So nobody who knows no collision of SM3 can change the end of a ciphertext: two different
strings with the same first 96 bytes that one key accepts contain different messages, whose tags are equal. -/
theorem C124_tail_binds (E : SM2.Ext) (hE : E.Lawful) (G : SM2.Point) (hG : xy G = (Curves.sm2.Gx, Curves.sm2.Gy))
    (priv : ECPriv) (hc : priv.pub.curve = Curves.sm2) (data data' spare spare' m m' : Bytes)
    (hd : data.length < 2 ^ 60) (hd' : data'.length < 2 ^ 60)
    (h : SM2.decrypt E priv data spare = .ok (some m, none))
    (h' : SM2.decrypt E priv data' spare' = .ok (some m', none))
    (ht : data.take 96 = data'.take 96) (hne : data ≠ data') :
    ∃ C C' : SM2.Point, xy C = c1 data ∧ xy C' = c1 data' ∧
      tagInput (priv.D • C) m ≠ tagInput (priv.D • C') m' ∧
      SM3.sumBytes (tagInput (priv.D • C) m) = SM3.sumBytes (tagInput (priv.D • C') m') := by
  obtain ⟨k, h1, hk, hl, exy, -, e2, -⟩ := accepted_tag E hE G hG priv hc data spare m hd h
  obtain ⟨k', h1', hk', hl', exy', -, e2', -⟩ := accepted_tag E hE G hG priv hc data' spare' m' hd' h'
  have t1 : data.take 32 = data'.take 32 := by
    have := congrArg (List.take 32) ht
    simpa [List.take_take] using this
  have t2 : (data.drop 32).take 32 = (data'.drop 32).take 32 := by
    have := congrArg (fun l => (l.drop 32).take 32) ht
    simpa [List.drop_take, List.take_take] using this
  have t3 : (data.drop 64).take 32 = (data'.drop 64).take 32 := by
    have := congrArg (fun l => l.drop 64) ht
    simpa [List.drop_take] using this
  refine C124_tag_binds E hE G hG priv priv hc hc data data' spare spare' m m' hd hd' h h' t3 fun hm => hne ?_
  have hkG : k • G = k' • G := by
    apply Affine.xy_inj good_sm2.ok
    rw [exy, exy', c1, c1, t1, t2]
  have hsh : k • priv.D • G = k' • priv.D • G := by
    rw [smul_comm k, smul_comm k', hkG]
  rw [← List.take_append_drop 96 data, ← List.take_append_drop 96 data', ht, e2, e2', hsh, hm]

/-- **C124** Nor can a ciphertext be meant for two keys: what one private key decrypts, a key that is neither equal nor
opposite does not accept, with any message, unless a collision of SM3 is known. -/
theorem C124_one_key (E : SM2.Ext) (hE : E.Lawful) (G : SM2.Point) (hG : xy G = (Curves.sm2.Gx, Curves.sm2.Gy))
    (priv priv' : ECPriv) (hc : priv.pub.curve = Curves.sm2) (hc' : priv'.pub.curve = Curves.sm2)
    (hD : 0 < priv.D ∧ priv.D < SM2.n) (hD' : 0 < priv'.D ∧ priv'.D < SM2.n)
    (hne : priv.D ≠ priv'.D) (hop : priv.D + priv'.D ≠ SM2.n)
    (data spare spare' m m' : Bytes) (hd : data.length < 2 ^ 60)
    (h : SM2.decrypt E priv data spare = .ok (some m, none)) :
    SM2.decrypt E priv' data spare' ≠ .ok (some m', none) ∨
    ∃ C C' : SM2.Point, xy C = c1 data ∧ xy C' = c1 data ∧
      tagInput (priv.D • C) m ≠ tagInput (priv'.D • C') m' ∧
      SM3.sumBytes (tagInput (priv.D • C) m) = SM3.sumBytes (tagInput (priv'.D • C') m') := by
  by_cases h' : SM2.decrypt E priv' data spare' = .ok (some m', none)
  swap
  · exact .inl h'
  right
  obtain ⟨k, h1, hk, -, exy, e, -, el⟩ := accepted_tag E hE G hG priv hc data spare m hd h
  obtain ⟨k', h1', hk', -, exy', e', -, el'⟩ := accepted_tag E hE G hG priv' hc' data spare' m' hd h'
  have hG0 : G ≠ 0 := good_sm2.G_ne_zero hG
  have hkG : k' • G = k • G := Affine.xy_inj good_sm2.ok (by rw [exy, exy'])
  have hC : k • G ≠ 0 := good_sm2.smul_ne_zero hG0 h1 hk
  have hs : k' • priv'.D • G = priv'.D • k • G := by rw [smul_comm, hkG]
  rw [hs] at e'
  rw [smul_comm k] at e
  have hx : (xy (priv.D • k • G)).1 ≠ (xy (priv'.D • k • G)).1 := fun hx => by
    rcases eq_or_neg (good_sm2.smul_ne_zero hC hD.1 hD.2) (good_sm2.smul_ne_zero hC hD'.1 hD'.2) hx with q | q
    · have := (good_sm2.smul_eq_iff hC _ _).mp q
      rw [Nat.mod_eq_of_lt hD.2, Nat.mod_eq_of_lt hD'.2] at this
      exact hne this
    · have q2 : (priv.D + priv'.D) • k • G = 0 := by rw [add_smul, q, neg_add_cancel]
      obtain ⟨t, ht⟩ := Nat.dvd_of_mod_eq_zero ((good_sm2.smul_eq_zero_iff hC _).mp q2)
      have ht : priv.D + priv'.D = SM2.n * t := ht
      match t, ht with
      | 0, ht => omega
      | 1, ht => omega
      | t + 2, ht =>
        have : SM2.n * (t + 2) = SM2.n * t + 2 * SM2.n := by ring
        omega
  exact ⟨k • G, k • G, exy, exy, fun heq => hx (tagInput_x heq),
    tagInput_sum (by omega) (by omega) (by rw [← e, ← e'])⟩

theorem mask33_103 : (SM2.sm3kdf (beFix 32 (kG 206).1 ++ beFix 32 (kG 206).2) 33).isSome = true := by decide +kernel

/-- Nobody knows two such ciphertexts, but they exist: for the key `2 G` and the nonce 103 there are more messages of
33 bytes than tags. -/
example (E : SM2.Ext) (hE : E.Lawful) (G : SM2.Point) (hG : xy G = (Curves.sm2.Gx, Curves.sm2.Gy)) :
    ∃ data data' m m', data.length < 2 ^ 60 ∧ data'.length < 2 ^ 60 ∧ data ≠ data' ∧ m ≠ m' ∧
      data.take 96 = data'.take 96 ∧ SM2.decrypt E priv2 data [] = .ok (some m, none) ∧
      SM2.decrypt E priv2 data' [] = .ok (some m', none) := by
  have hsh : xy (103 • priv2.D • G) = kG 206 := by
    rw [show priv2.D = 2 from rfl, smul_smul]; exact kG_eq G hG 206
  have hz : (pointBytes (103 • priv2.D • G)).length = 64 := by simp [pointBytes, SM2.beFix_len]
  have hok : ∀ m : Bytes, m.length = 33 → sm2MaskOk (priv2.D • G) 103 m := fun m hm => by
    have h := mask33_103
    have e := C44_kdf (pointBytes (103 • priv2.D • G)) (by rw [hz]; norm_num) 33
    rw [show pointBytes (103 • priv2.D • G) = beFix 32 (kG 206).1 ++ beFix 32 (kG 206).2 by rw [pointBytes, hsh]] at e hz
    rw [e] at h
    unfold sm2MaskOk
    rw [show pointBytes (103 • priv2.D • G) = beFix 32 (kG 206).1 ++ beFix 32 (kG 206).2 by rw [pointBytes, hsh], hm]
    by_contra hcon
    push Not at hcon
    rw [hz, if_pos hcon] at h
    cases h
  obtain ⟨m, m', hm, hm', hne, ht⟩ := collide33 (fun m => Spec.SM3.hash (beFix 32 (xy (103 • priv2.D • G)).1 ++ m
    ++ (bytesOfNat (xy (103 • priv2.D • G)).2 ++ zeros (32 - byteLen (xy (103 • priv2.D • G)).2)))) fun _ => hash_length _
  have hp : (pointBytes (103 • G)).length = 64 := by simp [pointBytes, SM2.beFix_len]
  have dec : ∀ m : Bytes, m.length = 33 →
      SM2.decrypt E priv2 (sm2Cipher G (priv2.D • G) 103 m) [] = .ok (some m, none) := fun m hm => by
    have := decrypt_of_C1 E hE G hG priv2 rfl 103 (by norm_num) (by decide +kernel) m
      (Spec.SM3.hash (beFix 32 (xy (103 • priv2.D • G)).1 ++ m
        ++ (bytesOfNat (xy (103 • priv2.D • G)).2 ++ zeros (32 - byteLen (xy (103 • priv2.D • G)).2)))) _ []
      (hash_length _) (by rw [hm]; norm_num) rfl (hok m hm)
    rw [if_pos rfl] at this
    exact this
  have len : ∀ m : Bytes, m.length = 33 → (sm2Cipher G (priv2.D • G) 103 m).length = 129 := fun m hm => by
    rw [sm2Cipher, List.length_append, List.length_append, hp, hash_length, SM2.xor, List.length_zipWith, C44_kdf_length, hm]
    rfl
  have t96 : ∀ m : Bytes, (sm2Cipher G (priv2.D • G) 103 m).take 96 = pointBytes (103 • G)
      ++ Spec.SM3.hash (beFix 32 (xy (103 • priv2.D • G)).1 ++ m
        ++ (bytesOfNat (xy (103 • priv2.D • G)).2 ++ zeros (32 - byteLen (xy (103 • priv2.D • G)).2))) := fun m => by
    rw [sm2Cipher, List.take_append_of_le_length (by rw [List.length_append, hp, hash_length]),
      List.take_of_length_le (by rw [List.length_append, hp, hash_length])]
  refine ⟨_, _, m, m', ?_, ?_, fun e => hne ?_, hne, ?_, dec m hm, dec m' hm'⟩
  · rw [len m hm]; norm_num
  · rw [len m' hm']; norm_num
  · have h1 := dec m hm
    rw [e, dec m' hm'] at h1
    exact (Option.some.inj (Prod.mk.inj (Res.ok.inj h1)).1).symm
  · rw [t96, t96, ht]

/-- The hypotheses of `C124_one_key` are met: a ciphertext for the key 2, and the key 3. -/
example : ∃ data, ∃ D' : ℕ, data.length < 2 ^ 60 ∧ 0 < D' ∧ D' < SM2.n ∧ priv2.D ≠ D' ∧ priv2.D + D' ≠ SM2.n ∧
    SM2.decrypt refSM2 priv2 data [] = .ok (some abc, none) := by
  have h : ((SM2.encrypt refSM2 1 (zeros 16) priv2.pub abc).map fun r => r.bind fun ct => .ok ct.length) = some (.ok 99) ∧
      ((SM2.encrypt refSM2 1 (zeros 16) priv2.pub abc).map fun r => r.bind fun ct => SM2.decrypt refSM2 priv2 ct [])
        = some (.ok (some abc, none)) := by decide +kernel
  generalize SM2.encrypt refSM2 1 (zeros 16) priv2.pub abc = r at h
  obtain ⟨h1, h2⟩ := h
  match r, h1, h2 with
  | some (.ok ct), h1, h2 =>
    refine ⟨ct, 3, ?_, by norm_num, by decide +kernel, by decide +kernel, by decide +kernel, Option.some.inj h2⟩
    have : ct.length = 99 := Res.ok.inj (Option.some.inj h1)
    omega

end Verif.Props
