import Verif.Props.Signer
/-!
# C97 and C136 for the compact signatures of secp256k1 keys, and C136 for schemes of different kinds

Key recovery finds the point `R` from the signature alone. With this the pair of digests is determined: there is no second
message, and no second scheme, without equal digests. `(r, s)` pairs do not have this property (C97_ecdsa_two_messages,
C136_two_schemes_fails), since they leave the sign of `R` open.
-/
namespace Verif.Props
open Verif.Keypair Verif.Signature Verif.Spec Verif.Spec.ECDSA

/-- btcec.RecoverCompact finds the point `R` in the signature, without the digest: `r Q + e G = s R` for the key `Q` that
it returns. -/
def RecoversFromPoint (E : Signature.Ext) : Prop :=
  ∀ (sig : Bytes) [Fact (Curves.secp256k1 E.k1name).P.Prime] (G : Pt (Curves.secp256k1 E.k1name) 0),
    xy G = ((Curves.secp256k1 E.k1name).Gx, (Curves.secp256k1 E.k1name).Gy) →
    ∃ R : Pt (Curves.secp256k1 E.k1name) 0, ∀ digest x y, E.recoverCompact sig digest = .ok (x, y) →
      ∃ Q : Pt (Curves.secp256k1 E.k1name) 0, xy Q = (x, y) ∧
        rOf (sig.drop 1) • Q + bits2int (Curves.secp256k1 E.k1name).N digest • G = sOf (sig.drop 1) • R

theorem hashOf_of_name {scheme : Scheme} {a : HashAlg} (h : name scheme = .ok (a.published ++ "withECDSA")) :
    hashOf scheme = some a := by
  have : ∀ scheme : Scheme, ∀ a ∈ [HashAlg.sha224, .sha256, .sha384, .sha512, .sha3_224, .sha3_256,
      .sha3_384, .sha3_512, .ripemd160, .sm3, .keccak256],
      name scheme = .ok (a.published ++ "withECDSA") → hashOf scheme = some a := by
    decide +kernel
  exact this scheme a (by cases a <;> decide) h

/-- What `Verify` accepts as a compact signature: the key is recovered from it. -/
theorem compact_accepted {E : Signature.Ext} {scheme : Scheme} {a : HashAlg} (ha : hashOf scheme = some a) {alg : Alg}
    {pub : ECPub} {msg : Bytes} {b : Buf}
    (h : verify E (.ec alg pub) msg (some ⟨scheme, .bytes b⟩) = .ok true) :
    E.recoverCompact b.data (E.hash a msg) = .ok (pub.x, pub.y) := by
  have hm : ¬ msg.length = 0 := fun e => verify_message h (List.eq_nil_of_length_eq_zero e)
  unfold verify at h
  simp only [if_neg hm, ha] at h
  split_ifs at h with h1 h2
  · simp only [secp256k1Verify] at h
    cases hr : E.recoverCompact b.data (E.hash a msg) with
    | err m => rw [hr] at h; cases h
    | panic m => rw [hr] at h; cases h
    | ok p =>
      rw [hr] at h
      have := of_decide_eq_true (Res.ok.inj h)
      rw [← this.1, ← this.2]
  · cases Res.ok.inj h
  · cases Res.ok.inj h

theorem compact_accepts {E : Signature.Ext} {scheme : Scheme} {a : HashAlg} (ha : hashOf scheme = some a)
    (hs : isECDSA scheme = true) {alg : Alg} {pub : ECPub} {msg : Bytes} (hm : msg ≠ []) {b : Buf}
    (h : E.recoverCompact b.data (E.hash a msg) = .ok (pub.x, pub.y)) :
    verify E (.ec alg pub) msg (some ⟨scheme, .bytes b⟩) = .ok true := by
  have hm0 : ¬ msg.length = 0 := fun e => hm (List.eq_nil_of_length_eq_zero e)
  unfold verify
  simp only [if_neg hm0, ha, hs, if_true, secp256k1Verify, h, and_self, decide_true]

/-- **C136** for compact signatures: one that is accepted under one key with two schemes, for the same message or for two
messages, shows two digests that are equal modulo the order. -/
theorem C136_compact (E : Signature.Ext) (hR : RecoversFromPoint E) (scheme scheme' : Scheme)
    (a a' : HashAlg) (hname : name scheme = .ok (a.published ++ "withECDSA"))
    (hname' : name scheme' = .ok (a'.published ++ "withECDSA")) (alg alg' : Alg) (pub : ECPub) (msg msg' : Bytes) (b : Buf)
    (h : verify E (.ec alg pub) msg (some ⟨scheme, .bytes b⟩) = .ok true)
    (h' : verify E (.ec alg' pub) msg' (some ⟨scheme', .bytes b⟩) = .ok true) :
    bits2int (Curves.secp256k1 E.k1name).N (E.hash a msg) ≡
      bits2int (Curves.secp256k1 E.k1name).N (E.hash a' msg') [MOD (Curves.secp256k1 E.k1name).N] := by
  have r1 := compact_accepted (hashOf_of_name hname) h
  have r2 := compact_accepted (hashOf_of_name hname') h'
  have hg : GoodCurve (Curves.secp256k1 E.k1name) 0 := good_k1 _
  have := hg.fact
  obtain ⟨G, hG⟩ := hg.exists_G
  obtain ⟨R, hRR⟩ := hR b.data G hG
  obtain ⟨Q, hQ, e1⟩ := hRR _ _ _ r1
  obtain ⟨Q', hQ', e2⟩ := hRR _ _ _ r2
  have : Q = Q' := Affine.xy_inj hg.ok (hQ.trans hQ'.symm)
  rw [← this, ← e1] at e2
  exact ((hg.smul_eq_iff (hg.G_ne_zero hG) _ _).1 (add_left_cancel e2)).symm

/-- **C97** for compact signatures: one that is accepted for two messages under one key shows two digests that are equal
modulo the order. -/
theorem C97_compact (E : Signature.Ext) (hR : RecoversFromPoint E) (scheme : Scheme)
    (a : HashAlg) (hname : name scheme = .ok (a.published ++ "withECDSA")) (alg : Alg) (pub : ECPub) (msg msg' : Bytes)
    (b : Buf) (h : verify E (.ec alg pub) msg (some ⟨scheme, .bytes b⟩) = .ok true)
    (h' : verify E (.ec alg pub) msg' (some ⟨scheme, .bytes b⟩) = .ok true) :
    bits2int (Curves.secp256k1 E.k1name).N (E.hash a msg) ≡
      bits2int (Curves.secp256k1 E.k1name).N (E.hash a msg') [MOD (Curves.secp256k1 E.k1name).N] :=
  C136_compact E hR scheme scheme a a hname hname alg alg pub msg msg' b h h'

/-- **C136** for schemes of different kinds: a signature value that is accepted under a key with two different schemes, for
whatever messages, is accepted with schemes named XwithECDSA only (the numbers up to 8). -/
theorem C136_kinds (E : Signature.Ext) (pub : PublicKey) (msg msg' : Bytes) (scheme scheme' : Scheme) (v : Value Buf)
    (hne : scheme ≠ scheme') (h : verify E pub msg (some ⟨scheme, v⟩) = .ok true)
    (h' : verify E pub msg' (some ⟨scheme', v⟩) = .ok true) : scheme.toNat ≤ 8 ∧ scheme'.toNat ≤ 8 := by
  have key : ∀ {msg scheme}, verify E pub msg (some ⟨scheme, v⟩) = .ok true →
      (scheme.toNat ≤ 8 ∧ (∃ a p, pub = .ec a p) ∧ ∀ r s c id, v ≠ .sm2 r s c id) ∨
      (scheme = 9 ∧ (∃ a p, pub = .ec a p) ∧ ∃ r s c id, v = .sm2 r s c id) ∨
      (scheme = 10 ∧ ∃ k, pub = .ed k) ∨ (scheme = 11 ∧ ∃ k, pub = .eth k) := by
    intro msg scheme h
    have hm : ¬ msg.length = 0 := fun e => verify_message h (List.eq_nil_of_length_eq_zero e)
    unfold verify at h
    simp only [if_neg hm] at h
    cases hh : hashOf scheme with
    | none => rw [hh] at h; cases Res.ok.inj h
    | some a =>
      simp only [hh] at h
      cases pub with
      | ec alg p =>
        simp only at h
        split_ifs at h with h1 h2
        · refine Or.inl ⟨(isECDSA_iff _).1 h1, ⟨_, _, rfl⟩, ?_⟩
          rintro r s c id rfl
          cases Res.ok.inj h
        · refine Or.inr (Or.inl ⟨h2, ⟨_, _, rfl⟩, ?_⟩)
          cases v with
          | sm2 r s c id => exact ⟨r, s, c, id, rfl⟩
          | _ => cases Res.ok.inj h
        · cases Res.ok.inj h
      | ed k =>
        simp only at h
        split_ifs at h with h1
        · exact Or.inr (Or.inr (Or.inl ⟨h1, k, rfl⟩))
        · cases Res.ok.inj h
      | eth k =>
        simp only at h
        split_ifs at h with h1
        · cases Res.ok.inj h
        · exact Or.inr (Or.inr (Or.inr ⟨not_not.1 h1, k, rfl⟩))
      | unknown => cases Res.ok.inj h
  rcases key h with ⟨h1, ⟨a, p, rfl⟩, h2⟩ | ⟨rfl, ⟨a, p, rfl⟩, r, s, c, id, rfl⟩ | ⟨rfl, k, rfl⟩ | ⟨rfl, k, rfl⟩
  · rcases key h' with ⟨g1, -, -⟩ | ⟨-, -, r, s, c, id, g⟩ | ⟨-, k, g⟩ | ⟨-, k, g⟩
    · exact ⟨h1, g1⟩
    · exact absurd g (h2 r s c id)
    · cases g
    · cases g
  · rcases key h' with ⟨-, -, g⟩ | ⟨rfl, -⟩ | ⟨-, k, g⟩ | ⟨-, k, g⟩
    · exact absurd rfl (g r s c id)
    · exact absurd rfl hne
    · cases g
    · cases g
  · rcases key h' with ⟨-, ⟨_, _, g⟩, -⟩ | ⟨-, ⟨_, _, g⟩, -⟩ | ⟨rfl, -⟩ | ⟨-, k, g⟩
    · cases g
    · cases g
    · exact absurd rfl hne
    · cases g
  · rcases key h' with ⟨-, ⟨_, _, g⟩, -⟩ | ⟨-, ⟨_, _, g⟩, -⟩ | ⟨-, k, g⟩ | ⟨rfl, -⟩
    · cases g
    · cases g
    · cases g
    · exact absurd rfl hne

/-! ## Non-vacuity -/

theorem refSig_recovers : RecoversFromPoint refSig := by
  intro sig _ G hG
  have hg : GoodCurve k1 0 := good_k1 ""
  change Pt k1 0 at G
  change xy G = (k1.Gx, k1.Gy) at hG
  change ∃ R : Pt k1 0, ∀ digest x y, refRecover sig digest = .ok (x, y) →
    ∃ Q : Pt k1 0, xy Q = (x, y) ∧ rOf (sig.drop 1) • Q + bits2int k1.N digest • G = sOf (sig.drop 1) • R
  cases hl : liftX k1 (rOf (sig.drop 1) + (sig.getD 0 0 - 27).toNat / 2 * k1.N) ((sig.getD 0 0 - 27).toNat % 2) with
  | none =>
    refine ⟨0, fun digest x y h => ?_⟩
    unfold refRecover at h
    simp only [hl] at h
    split_ifs at h
  | some y' =>
    have hon := liftX_sound k1_four hl
    refine ⟨Affine.ofXY hg.ok hon, fun digest x y h => ?_⟩
    unfold refRecover at h
    simp only [hl] at h
    split_ifs at h with h1 h2 h3
    have hxy := Affine.xy_ofXY hg.ok hon (by omega) (by omega)
    set R := Affine.ofXY hg.ok hon with hR
    set r := rOf (sig.drop 1)
    set w := SM2.fermatInverse r k1.N with hw
    have hw1 := (SM2.fermatInverse_spec hg.order_prime k1_two r).1 (fun e => h2 (Or.inl e))
    rw [← hw] at hw1
    rw [← hxy, ← hG, Affine.smul_eq hg.ok 0 k1_aN, Affine.smul_eq hg.ok 0 k1_aN,
      Affine.add_eq hg.ok 0 k1_aN] at h
    refine ⟨_, Res.ok.inj h, ?_⟩
    obtain ⟨k, -, hk⟩ := hg.exists_smul (hg.G_ne_zero hG) R
    rw [← hk]
    simp only [smul_smul, ← add_smul]
    exact (hg.smul_eq_iff (hg.G_ne_zero hG) _ _).2 (recover_scalar hg.order_prime hw1 _ rfl k)

/-- A compact signature that is accepted for two messages with two schemes: the digests of `refSig` do not depend on the
scheme or on leading zeros. The value of C136_kinds is among these. -/
example : ∃ b, verify refSig (.ec .ecdsa (keyOn (Curves.secp256k1 "") 5).pub) abc (some ⟨1, .bytes b⟩) = .ok true ∧
    verify refSig (.ec .ecdsa (keyOn (Curves.secp256k1 "") 5).pub) (0 :: abc) (some ⟨1, .bytes b⟩) = .ok true ∧
    verify refSig (.ec .ecdsa (keyOn (Curves.secp256k1 "") 5).pub) (0 :: abc) (some ⟨3, .bytes b⟩) = .ok true := by
  have h : (match sign refSig 1 (zeros 80) 1 (.ec .ecdsa (keyOn (Curves.secp256k1 "") 5)) abc .other with
    | some (.ok ⟨1, .bytes _⟩) => true
    | _ => false) = true := by decide +kernel
  split at h
  next b hs =>
    have := C33_sign_verify_partial refSig refSig_lawful 1 (zeros 80) 1
      (.ec .ecdsa (keyOn (Curves.secp256k1 "") 5)) (keyOn_pair _ (by decide) 5 (by decide +kernel)) abc .other _ hs
      (by decide) (by rintro ⟨⟨_, h⟩, -⟩; cases h)
    have r := compact_accepted (a := .sha256) rfl this
    have e1 : refSig.hash .sha256 (0 :: abc) = refSig.hash .sha256 abc := by decide +kernel
    have e2 : refSig.hash .sha512 (0 :: abc) = refSig.hash .sha256 abc := by decide +kernel
    refine ⟨b, this, ?_, ?_⟩
    · exact compact_accepts (a := .sha256) rfl (by decide) (by decide) (by rw [e1]; exact r)
    · exact compact_accepts (a := .sha512) rfl (by decide) (by decide) (by rw [e2]; exact r)
  next => cases h

end Verif.Props
