import Verif.Props.GoECDSA
import Verif.Props.SM2Nonce
/-!
# C142: the nonces of ECDSA signatures
-/
namespace Verif.Props
open Verif.Keypair Verif.Signature Verif.Spec Verif.Spec.ECDSA

/-- The equation of a nonce: it is invertible. -/
theorem goSignTry_nonce (L : GoECDSA.Ext) (c : Curve) (a : Int) (hg : GoodCurve c a) (h2 : 2 < c.N) (hL : GoCurve L c a)
    [Fact c.P.Prime] (G : Pt c a) (hG : xy G = (c.Gx, c.Gy)) {D e k r s : Nat} (hk0 : 0 < k) (hk : k < c.N)
    (h : GoECDSA.signTry L c D e k = some (r, s)) :
    r = (xy (k • G)).1 % c.N ∧ k * s % c.N = (e + r * D) % c.N := by
  have hk1 : k % c.N ≠ 0 := by rw [Nat.mod_eq_of_lt hk]; omega
  unfold GoECDSA.signTry at h
  have hi : k * GoECDSA.nonceInverse L c k % c.N = 1 := by
    unfold GoECDSA.nonceInverse
    cases hi : L.inverse c with
    | none => exact (SM2.fermatInverse_spec hg.order_prime h2 k).1 hk1
    | some f => exact hL.inverse f hi _ hk1
  simp only [hL.ops.base G hG] at h
  generalize GoECDSA.nonceInverse L c k = w at hi h
  split_ifs at h with h0 h3
  have e1 := congrArg Prod.fst (Option.some.inj h)
  have e2 := congrArg Prod.snd (Option.some.inj h)
  simp only at e1 e2
  rw [e1] at e2
  refine ⟨e1.symm, ?_⟩
  rw [← e2, Nat.mul_mod, Nat.mod_mod, ← Nat.mul_mod, show k * ((D * r + e) * w) = k * w * (e + r * D) by ring,
    Nat.mul_mod, hi, one_mul, Nat.mod_mod]

/-- Which read of the stream made the signature. -/
theorem goSign_read (L : GoECDSA.Ext) (fuel : Nat) (priv : ECPriv) (digest rand : Bytes) (rs : Nat × Nat)
    (h : GoECDSA.sign L fuel priv digest rand = .ok rs) :
    SM2.entropyLen priv.pub.curve ≤ rand.length ∧ ∃ i < fuel,
      GoECDSA.signTry L priv.pub.curve priv.D (bits2int priv.pub.curve.N digest)
        (GoECDSA.randFieldElement priv.pub.curve
          (L.ctr ((L.sha512 (bytesOfNat priv.D ++ rand.take (SM2.entropyLen priv.pub.curve) ++ digest)).take 32)
            (SM2.readLen priv.pub.curve * i) (SM2.readLen priv.pub.curve))) = some rs := by
  unfold GoECDSA.sign at h
  simp only [C141_hash] at h
  split_ifs at h with h1 h3
  refine ⟨by omega, ?_⟩
  have loop : ∀ l : List Bytes, GoECDSA.signLoop L priv.pub.curve priv.D (bits2int priv.pub.curve.N digest) l = some rs →
      ∃ b ∈ l, GoECDSA.signTry L priv.pub.curve priv.D (bits2int priv.pub.curve.N digest)
        (GoECDSA.randFieldElement priv.pub.curve b) = some rs := by
    intro l
    induction l with
    | nil => intro e; cases e
    | cons b l ih =>
      intro e
      rw [GoECDSA.signLoop] at e
      cases ht : GoECDSA.signTry L priv.pub.curve priv.D (bits2int priv.pub.curve.N digest)
          (GoECDSA.randFieldElement priv.pub.curve b) with
      | none =>
        rw [ht] at e
        obtain ⟨b', hb', hs⟩ := ih e
        exact ⟨b', List.mem_cons_of_mem _ hb', hs⟩
      | some rs' =>
        rw [ht] at e
        exact ⟨b, List.mem_cons_self, by rw [ht]; exact e⟩
  cases hl : GoECDSA.signLoop L priv.pub.curve priv.D (bits2int priv.pub.curve.N digest)
      ((List.range fuel).map fun i =>
        L.ctr ((L.sha512 (bytesOfNat priv.D ++ rand.take (SM2.entropyLen priv.pub.curve) ++ digest)).take 32)
          (SM2.readLen priv.pub.curve * i) (SM2.readLen priv.pub.curve)) with
  | none => rw [hl] at h; cases h
  | some rs' =>
    rw [hl] at h
    rw [Res.ok.inj h] at hl
    obtain ⟨b, hb, hs⟩ := loop _ hl
    obtain ⟨i, hi, rfl⟩ := List.mem_map.1 hb
    exact ⟨i, List.mem_range.1 hi, hs⟩

/-- A signature with two numbers by an EC key was made by `ecdsa.Sign`. -/
theorem sign_dsa (E : Signature.Ext) (L : GoECDSA.Ext) (fuel fuel' : Nat) (rand : Bytes) (scheme : Scheme) (t : Alg)
    (priv : ECPriv) (msg : Bytes) (opt : Opt) (r s : Nat) (c : Option Curve) (sch : Scheme)
    (h : sign (withGo E L fuel) fuel' rand scheme (.ec t priv) msg opt = some (.ok ⟨sch, .dsa r s c⟩)) :
    ∃ ha, hashOf scheme = some ha ∧ GoECDSA.sign L fuel priv (E.hash ha msg) rand = .ok (r, s) := by
  unfold sign at h
  cases hh : hashOf scheme with
  | none => simp only [hh] at h; cases Option.some.inj h
  | some ha =>
    simp only [hh] at h
    refine ⟨ha, rfl, ?_⟩
    have hH : (withGo E L fuel).hash ha msg = E.hash ha msg := by cases ha <;> rfl
    split_ifs at h with h1 h2
    · obtain ⟨x, -, hx⟩ := Option.map_eq_some_iff.1 h
      cases x <;> simp [Res.map] at hx
    · rw [hH] at h
      have h := Option.some.inj h
      unfold signECDSA at h
      split_ifs at h with h3
      · revert h
        cases secp256k1Sign (withGo E L fuel) priv (E.hash ha msg) <;> simp [Res.map]
      · have e : (withGo E L fuel).ecdsaSign = GoECDSA.sign L fuel := rfl
        rw [e] at h
        cases hg : GoECDSA.sign L fuel priv (E.hash ha msg) rand with
        | err m => rw [hg] at h; cases h
        | panic m => rw [hg] at h; cases h
        | ok rs =>
          rw [hg] at h
          simp [Res.map] at h
          obtain ⟨-, e1, e2, -⟩ := h
          congr 1
          exact Prod.ext e1 e2
    · cases Option.some.inj h

/-- **C142** The nonce of every ECDSA signature `(r, s)` that `Sign` returns is made from the AES-CTR stream under a key that
is the truncated SHA-512 of a string that determines the private key, the bytes read from the random source and the
digest: `r` is the x-coordinate of the multiple of the base point by this nonce `k`, and `k s = e + r D` modulo the
order. So when a nonce stream is used for two digests or keys, or with different random bytes, there is a collision of
truncated SHA-512. -/
theorem C142_nonce : ∃ seed : Nat → Bytes → Bytes → Bytes,
    (∀ D D' e e' d d', e.length = e'.length → d.length = d'.length → seed D e d = seed D' e' d' →
      D = D' ∧ e = e' ∧ d = d') ∧
    ∀ (E : Signature.Ext), GoodName E.k1name → ∀ (L : GoECDSA.Ext) (fuel fuel' : Nat) (rand : Bytes) (scheme sch : Scheme)
      (t : Alg) (priv : ECPriv) (msg : Bytes) (opt : Opt) (r s : Nat) (c : Option Curve),
      priv.pub.curve ∈ Curves.all E.k1name → GoCurve L priv.pub.curve (curveA E.k1name priv.pub.curve) →
      sign (withGo E L fuel) fuel' rand scheme (.ec t priv) msg opt = some (.ok ⟨sch, .dsa r s c⟩) →
      ∀ [Fact priv.pub.curve.P.Prime] (G : Pt priv.pub.curve (curveA E.k1name priv.pub.curve)),
      xy G = (priv.pub.curve.Gx, priv.pub.curve.Gy) →
      SM2.entropyLen priv.pub.curve ≤ rand.length ∧
      ∃ h, hashOf scheme = some h ∧ ∃ i < fuel, ∃ k,
        k = natOfBytes (L.ctr ((L.sha512 (seed priv.D (rand.take (SM2.entropyLen priv.pub.curve)) (E.hash h msg))).take 32)
          (SM2.readLen priv.pub.curve * i) (SM2.readLen priv.pub.curve)) % (priv.pub.curve.N - 1) + 1 ∧
        r = (xy (k • G)).1 % priv.pub.curve.N ∧
        k * s % priv.pub.curve.N = (bits2int priv.pub.curve.N (E.hash h msg) + r * priv.D) % priv.pub.curve.N := by
  refine ⟨fun D e d => bytesOfNat D ++ e ++ d, ?_, ?_⟩
  · intro D D' e e' d d' he hd h
    obtain ⟨h1, h2⟩ := List.append_inj' h hd
    obtain ⟨h3, h4⟩ := List.append_inj' h1 he
    exact ⟨bytesOfNat_inj h3, h4, h2⟩
  · intro E hE L fuel fuel' rand scheme sch t priv msg opt r s c hc hL h _ G hG
    obtain ⟨ha, hh, hs⟩ := sign_dsa E L fuel fuel' rand scheme t priv msg opt r s c sch h
    obtain ⟨h1, i, hi, ht⟩ := goSign_read L fuel priv _ rand _ hs
    refine ⟨h1, ha, hh, i, hi, _, rfl, ?_⟩
    have h2 := all_two_lt _ _ hc
    obtain ⟨k0, k1⟩ := goNonce_range priv.pub.curve h2
      (L.ctr ((L.sha512 (bytesOfNat priv.D ++ rand.take (SM2.entropyLen priv.pub.curve) ++ E.hash ha msg)).take 32)
        (SM2.readLen priv.pub.curve * i) (SM2.readLen priv.pub.curve))
    exact goSignTry_nonce L _ _ (good_of_mem E.k1name hE _ hc) h2 hL G hG k0 k1 ht

/-- **C134** The part that holds for ECDSA: when the random source gives `Sign` the same bytes in two calls with one key, and
the digests differ, then the nonces of the two signatures come from AES-CTR streams whose keys are truncated SHA-512
values of different strings. -/
theorem C134_ecdsa_partial (E : Signature.Ext) (hE : GoodName E.k1name) (L : GoECDSA.Ext) (fuel fuel' f f' : Nat)
    (rand rand' : Bytes) (scheme scheme' sch sch' : Scheme) (t t' : Alg) (priv : ECPriv) (msg msg' : Bytes) (opt opt' : Opt)
    (r s r' s' : Nat) (c c' : Option Curve) (hc : priv.pub.curve ∈ Curves.all E.k1name)
    (hL : GoCurve L priv.pub.curve (curveA E.k1name priv.pub.curve))
    (hrand : rand.take (SM2.entropyLen priv.pub.curve) = rand'.take (SM2.entropyLen priv.pub.curve))
    (h : sign (withGo E L fuel) f rand scheme (.ec t priv) msg opt = some (.ok ⟨sch, .dsa r s c⟩))
    (h' : sign (withGo E L fuel') f' rand' scheme' (.ec t' priv) msg' opt' = some (.ok ⟨sch', .dsa r' s' c'⟩))
    (hd : ∀ a a', hashOf scheme = some a → hashOf scheme' = some a' → E.hash a msg ≠ E.hash a' msg') :
    ∃ a a' seed seed' i i' k k', hashOf scheme = some a ∧ hashOf scheme' = some a' ∧
      seed = bytesOfNat priv.D ++ rand.take (SM2.entropyLen priv.pub.curve) ++ E.hash a msg ∧
      seed' = bytesOfNat priv.D ++ rand.take (SM2.entropyLen priv.pub.curve) ++ E.hash a' msg' ∧ seed ≠ seed' ∧
      k = natOfBytes (L.ctr ((L.sha512 seed).take 32) (SM2.readLen priv.pub.curve * i) (SM2.readLen priv.pub.curve)) %
        (priv.pub.curve.N - 1) + 1 ∧
      k' = natOfBytes (L.ctr ((L.sha512 seed').take 32) (SM2.readLen priv.pub.curve * i') (SM2.readLen priv.pub.curve)) %
        (priv.pub.curve.N - 1) + 1 ∧
      k * s % priv.pub.curve.N = (bits2int priv.pub.curve.N (E.hash a msg) + r * priv.D) % priv.pub.curve.N ∧
      k' * s' % priv.pub.curve.N = (bits2int priv.pub.curve.N (E.hash a' msg') + r' * priv.D) % priv.pub.curve.N := by
  have hg := good_of_mem E.k1name hE _ hc
  have := hg.fact
  obtain ⟨G, hG⟩ := hg.exists_G
  have h2 := all_two_lt _ _ hc
  obtain ⟨a, ha, hs⟩ := sign_dsa E L fuel f rand scheme t priv msg opt r s c sch h
  obtain ⟨a', ha', hs'⟩ := sign_dsa E L fuel' f' rand' scheme' t' priv msg' opt' r' s' c' sch' h'
  obtain ⟨-, i, -, ht⟩ := goSign_read L fuel priv _ rand _ hs
  obtain ⟨-, i', -, ht'⟩ := goSign_read L fuel' priv _ rand' _ hs'
  rw [← hrand] at ht'
  obtain ⟨k0, k1⟩ := goNonce_range priv.pub.curve h2
    (L.ctr ((L.sha512 (bytesOfNat priv.D ++ rand.take (SM2.entropyLen priv.pub.curve) ++ E.hash a msg)).take 32)
      (SM2.readLen priv.pub.curve * i) (SM2.readLen priv.pub.curve))
  obtain ⟨l0, l1⟩ := goNonce_range priv.pub.curve h2
    (L.ctr ((L.sha512 (bytesOfNat priv.D ++ rand.take (SM2.entropyLen priv.pub.curve) ++ E.hash a' msg')).take 32)
      (SM2.readLen priv.pub.curve * i') (SM2.readLen priv.pub.curve))
  refine ⟨a, a', _, _, i, i', _, _, ha, ha', rfl, rfl, fun e => hd a a' ha ha' (List.append_cancel_left e), rfl, rfl,
    (goSignTry_nonce L _ _ hg h2 hL G hG k0 k1 ht).2, (goSignTry_nonce L _ _ hg h2 hL G hG l0 l1 ht').2⟩

/-- A nonce that was used for two digests tells the private key. -/
theorem C142_reuse (N : Nat) [Fact N.Prime] (k e e' r s s' D : ZMod N) (hr : r ≠ 0) (he : e ≠ e')
    (h : k * s = e + r * D) (h' : k * s' = e' + r * D) : D = (e * s' - e' * s) * (r * (s - s'))⁻¹ := by
  have hs : s - s' ≠ 0 := by
    intro h0
    apply he
    linear_combination k * h0 - h + h'
  have hne : r * (s - s') ≠ 0 := mul_ne_zero hr hs
  rw [eq_mul_inv_iff_mul_eq₀ hne]
  linear_combination s' * h - s * h'

theorem go_count (c : Curve) (h2 : 2 < c.N) (k : Nat) :
    let m := {b : Bytes | b.length = SM2.readLen c ∧ GoECDSA.randFieldElement c b = k}.ncard
    (1 ≤ k ∧ k < c.N → m = 256 ^ SM2.readLen c / (c.N - 1) ∨ m = 256 ^ SM2.readLen c / (c.N - 1) + 1) ∧
      (¬ (1 ≤ k ∧ k < c.N) → m = 0) := by
  refine ⟨fun hk => ?_, fun hk => ?_⟩
  · have hset : {b : Bytes | b.length = SM2.readLen c ∧ GoECDSA.randFieldElement c b = k} =
        {b : Bytes | b.length = SM2.readLen c ∧ natOfBytes b ≡ k - 1 [MOD c.N - 1]} := by
      ext b
      simp only [Set.mem_ofPred_eq, and_congr_right_iff, Nat.ModEq]
      intro _
      unfold GoECDSA.randFieldElement
      rw [Nat.mod_eq_of_lt (a := k - 1) (by omega)]
      omega
    rw [hset, ncard_bytes _ (· ≡ k - 1 [MOD c.N - 1]), Nat.count_modEq_card _ (by omega)]
    split_ifs
    · exact Or.inr rfl
    · exact Or.inl rfl
  · have : {b : Bytes | b.length = SM2.readLen c ∧ GoECDSA.randFieldElement c b = k} = ∅ := by
      ext b
      simp only [Set.mem_ofPred_eq, Set.mem_empty_iff_false, iff_false, not_and]
      rintro - rfl
      exact hk (goNonce_range c h2 b)
    rw [this, Set.ncard_empty]

/-- **C142** On every supported curve, of the byte strings of the length read for a nonce each number from 1 to `N - 1` is made
from `q` or `q + 1`, and no other number is made; `q` is at least `2^63`. So for uniform bytes the probabilities of two
nonces differ by a factor of at most `1 + 2^-63`. -/
theorem C142_count (nm : String) (c : Curve) (hc : c ∈ Curves.all nm) : ∃ q, 2 ^ 63 ≤ q ∧ ∀ k,
    let m := {b : Bytes | b.length = SM2.readLen c ∧ GoECDSA.randFieldElement c b = k}.ncard
    (1 ≤ k ∧ k < c.N → m = q ∨ m = q + 1) ∧ (¬ (1 ≤ k ∧ k < c.N) → m = 0) := by
  refine ⟨256 ^ SM2.readLen c / (c.N - 1), ?_, go_count c (all_two_lt nm c hc)⟩
  simp only [Curves.all, List.mem_cons, List.not_mem_nil, or_false] at hc
  have hk : 2 ^ 63 ≤ 256 ^ SM2.readLen k1 / (k1.N - 1) := by decide +kernel
  rcases hc with rfl | rfl | rfl | rfl | rfl | rfl <;> first
    | decide +kernel
    | exact hk

/-- The signature that `Sign` makes of a message of one byte with the private key 1. -/
def goSigned (b : Byte) : Option (Res (Sig Buf)) :=
  sign (withGo refSig refGo 1) 1 (zeros 16) SHA256withECDSA (.ec .ecdsa ⟨1, ⟨Curves.p256, Curves.p256.Gx, Curves.p256.Gy⟩⟩) [b]
    .other

/-- A pair of numbers for P-256. -/
def isP256Sig : Option (Res (Sig Buf)) → Bool
  | some (.ok ⟨sch, .dsa r s (some c)⟩) => decide (sch = SHA256withECDSA ∧ 0 ≤ r ∧ 0 ≤ s ∧ c = Curves.p256)
  | _ => false

/-- Two calls with the same random bytes and different digests return signatures. -/
example : GoodName refSig.k1name ∧ Curves.p256 ∈ Curves.all refSig.k1name ∧
    GoCurve refGo Curves.p256 (curveA refSig.k1name Curves.p256) ∧
    (∃ r s : Nat, goSigned 1 = some (.ok ⟨SHA256withECDSA, .dsa r s (some Curves.p256)⟩)) ∧
    (∃ r s : Nat, goSigned 2 = some (.ok ⟨SHA256withECDSA, .dsa r s (some Curves.p256)⟩)) ∧
    refSig.hash .sha256 [1] ≠ refSig.hash .sha256 [2] := by
  have key : ∀ o : Option (Res (Sig Buf)), isP256Sig o = true → ∃ r s : Nat,
      o = some (.ok ⟨SHA256withECDSA, .dsa r s (some Curves.p256)⟩) := by
    intro o h
    match o, h with
    | some (.ok ⟨sch, .dsa r s (some c)⟩), h =>
      obtain ⟨h1, h2, h3, h4⟩ := of_decide_eq_true h
      exact ⟨r.toNat, s.toNat, by rw [h1, h4, Int.toNat_of_nonneg h2, Int.toNat_of_nonneg h3]⟩
  have h1 : isP256Sig (goSigned 1) = true := by decide +kernel
  have h2 : isP256Sig (goSigned 2) = true := by decide +kernel
  exact ⟨.inl rfl, by simp [Curves.all], refGo_curve _ (by simp), key _ h1, key _ h2, by decide +kernel⟩

/-- Strings that give the least and the greatest nonce, on the curve whose size is not a whole number of bytes. -/
example : GoECDSA.randFieldElement Curves.p521 (zeros 73) = 1 ∧ SM2.readLen Curves.p521 = 73 ∧
    GoECDSA.randFieldElement Curves.p521 (beFix 73 (Curves.p521.N - 2)) = Curves.p521.N - 1 := by decide +kernel

end Verif.Props
