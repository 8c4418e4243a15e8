import Verif.Model.RFC6979
import Verif.Spec.RFC6979
import Verif.Props.GoCompactSign
/-!
# C155: the nonces of compact signatures are those of RFC 6979
-/
namespace Verif.Props
open Verif.Keypair Verif.Signature Verif.Spec Verif.Spec.ECDSA Verif.Spec.RFC6979

theorem bits2int_lt (h : Bytes) : bits2int (Curves.secp256k1 "").N h < 2 ^ 256 := by
  have hl : Nat.log2 (Curves.secp256k1 "").N = 255 := by
    change Nat.log2 Signature.k1.N = 255
    decide +kernel
  unfold bits2int
  rw [hl, Nat.shiftRight_eq_div_pow]
  have h1 := natOfBytes_lt h
  rw [Nat.div_lt_iff_lt_mul (by positivity), ← pow_add]
  refine lt_of_lt_of_le h1 ?_
  rw [show (256 : ℕ) = 2 ^ 8 by norm_num, ← pow_mul]
  exact Nat.pow_le_pow_right (by norm_num) (by omega)

theorem bits2octets_eq (h : Bytes) :
    GoCompact.bits2octets h = beFix 32 (bits2int (Curves.secp256k1 "").N h % (Curves.secp256k1 "").N) := by
  unfold GoCompact.bits2octets
  rw [C141_hash]
  have h1 := bits2int_lt h
  have h2 : 2 ^ 256 ≤ 2 * (Curves.secp256k1 "").N := by
    change 2 ^ 256 ≤ 2 * Signature.k1.N
    decide +kernel
  change (if bits2int (Curves.secp256k1 "").N h < (Curves.secp256k1 "").N then _ else beFix 32 (_ - (Curves.secp256k1 "").N)) = _
  generalize bits2int (Curves.secp256k1 "").N h = z at *
  generalize (Curves.secp256k1 "").N = N at *
  generalize 2 ^ 256 = M at *
  by_cases hz : z < N
  · rw [if_pos hz, Nat.mod_eq_of_lt hz]
  · rw [if_neg hz, Nat.mod_eq_sub_mod (not_lt.1 hz), Nat.mod_eq_of_lt (by omega)]

theorem nonceInit_eq (d : ℕ) (h : Bytes) :
    GoCompact.nonceInit d h = start GoCompact.mac (Curves.secp256k1 "").N d h := by
  unfold GoCompact.nonceInit start
  simp only [bits2octets_eq, List.append_assoc, List.cons_append, List.nil_append]

theorem nonceLoop_iff (d : ℕ) (h : Bytes) (k : ℕ) : ∀ n i,
    (GoCompact.nonceLoop n (state GoCompact.mac (Curves.secp256k1 "").N d h i) = some k ↔
      ∃ j, i ≤ j ∧ j < i + n ∧ k = candidate GoCompact.mac (Curves.secp256k1 "").N d h j ∧ 1 ≤ k ∧
        k < (Curves.secp256k1 "").N ∧ ∀ l, i ≤ l → l < j →
          candidate GoCompact.mac (Curves.secp256k1 "").N d h l = 0 ∨
            (Curves.secp256k1 "").N ≤ candidate GoCompact.mac (Curves.secp256k1 "").N d h l)
  | 0, i => by
    constructor
    · intro h; cases h
    · rintro ⟨j, h1, h2, -⟩; omega
  | n + 1, i => by
    have ih := nonceLoop_iff d h k n (i + 1)
    have hst : state GoCompact.mac (Curves.secp256k1 "").N d h (i + 1) =
        (let v := GoCompact.mac (state GoCompact.mac (Curves.secp256k1 "").N d h i).1
           (state GoCompact.mac (Curves.secp256k1 "").N d h i).2
         let k := GoCompact.mac (state GoCompact.mac (Curves.secp256k1 "").N d h i).1 (v ++ [0x00])
         (k, GoCompact.mac k v)) := rfl
    have hc : GoECDSA.hashToInt (GoCompact.mac (state GoCompact.mac (Curves.secp256k1 "").N d h i).1
        (state GoCompact.mac (Curves.secp256k1 "").N d h i).2) GoCompact.k1 =
        candidate GoCompact.mac (Curves.secp256k1 "").N d h i := C141_hash _ _
    have hun : GoCompact.nonceLoop (n + 1) (state GoCompact.mac (Curves.secp256k1 "").N d h i) =
        if candidate GoCompact.mac (Curves.secp256k1 "").N d h i ≥ 1 ∧
          candidate GoCompact.mac (Curves.secp256k1 "").N d h i < (Curves.secp256k1 "").N then
          some (candidate GoCompact.mac (Curves.secp256k1 "").N d h i)
        else GoCompact.nonceLoop n (state GoCompact.mac (Curves.secp256k1 "").N d h (i + 1)) := by
      rw [hst, ← hc]; rfl
    rw [hun]
    clear hun hc hst
    generalize candidate GoCompact.mac (Curves.secp256k1 "").N d h = c at *
    generalize (Curves.secp256k1 "").N = N at *
    by_cases hok : c i ≥ 1 ∧ c i < N
    · rw [if_pos hok]
      constructor
      · intro e
        cases Option.some.inj e
        exact ⟨i, le_refl _, by omega, rfl, hok.1, hok.2, fun l h1 h2 => by omega⟩
      · rintro ⟨j, h1, h2, h3, h4, h5, h6⟩
        rcases Nat.lt_or_eq_of_le h1 with hlt | rfl
        · have := h6 i (le_refl _) hlt; omega
        · rw [h3]
    · rw [if_neg hok, ih]
      constructor
      · rintro ⟨j, h1, h2, h3, h4, h5, h6⟩
        refine ⟨j, by omega, by omega, h3, h4, h5, fun l h7 h8 => ?_⟩
        rcases Nat.lt_or_eq_of_le h7 with hlt | rfl
        · exact h6 l hlt h8
        · omega
      · rintro ⟨j, h1, h2, h3, h4, h5, h6⟩
        have : i ≠ j := by rintro rfl; rw [← h3] at hok; exact hok ⟨h4, h5⟩
        exact ⟨j, by omega, by omega, h3, h4, h5, fun l h7 h8 => h6 l (by omega) h8⟩

/-- **C155** The nonce is the one of RFC 6979, section 3.2, for HMAC with SHA-256: the first candidate from 1 to `N - 1`. -/
theorem C155_rfc6979 (rounds d : ℕ) (h : Bytes) (k : ℕ) :
    GoCompact.nonceRFC6979 rounds d h = some k ↔ ∃ i < rounds, IsNonce Scrypt.hmac (Curves.secp256k1 "").N d h i k := by
  unfold GoCompact.nonceRFC6979
  rw [nonceInit_eq]
  refine Iff.trans (nonceLoop_iff d h k rounds 0) ?_
  constructor
  · rintro ⟨j, -, h2, h3, h4, h5, h6⟩
    exact ⟨j, by omega, h3, h4, h5, fun l hl => h6 l (Nat.zero_le _) hl⟩
  · rintro ⟨j, h2, h3, h4, h5, h6⟩
    exact ⟨j, Nat.zero_le _, by omega, h3, h4, h5, fun l _ hl => h6 l hl⟩

/-- **C155** With these nonces, for a key pair, a nonce found in the given number of rounds and nonzero `r` and `s`,
`Sign` of a secp256k1 key returns the same signature for every random source, and `Verify` accepts it. -/
theorem C155_sign (E : Signature.Ext) (ops : CurveOps) (hops : ops.Lawful (Curves.secp256k1 "") 0) (rounds : ℕ)
    (scheme : Scheme) (a : HashAlg) (hname : name scheme = .ok (a.published ++ "withECDSA")) (alg : Alg) (priv : ECPriv)
    (hk : priv.pub.curve.name = E.k1name) (hp : EthPair priv) (msg : Bytes) (hm : msg ≠ []) (opt : Opt) (k : ℕ)
    (hn : GoCompact.nonceRFC6979 rounds priv.D (E.hash a msg) = some k)
    [Fact (Curves.secp256k1 "").P.Prime] (G : Pt (Curves.secp256k1 "") 0)
    (hG : xy G = ((Curves.secp256k1 "").Gx, (Curves.secp256k1 "").Gy))
    (hr : (xy (k • G)).1 % (Curves.secp256k1 "").N ≠ 0)
    (hz : ((xy (k • G)).1 % (Curves.secp256k1 "").N * priv.D + bits2int (Curves.secp256k1 "").N (E.hash a msg)) %
      (Curves.secp256k1 "").N ≠ 0) :
    ∃ sig, (∀ fuel rand, sign (withBtcecSign E ops fun d h => (GoCompact.nonceRFC6979 rounds d h).getD 0) fuel rand scheme
        (.ec alg priv) msg opt = some (.ok sig)) ∧
      verify (withBtcecSign E ops fun d h => (GoCompact.nonceRFC6979 rounds d h).getD 0) (.ec alg priv.pub) msg (some sig) =
        .ok true := by
  obtain ⟨i, -, -, h1, h2, -⟩ := (C155_rfc6979 rounds priv.D (E.hash a msg) k).1 hn
  have hnk : (fun d h => (GoCompact.nonceRFC6979 rounds d h).getD 0) priv.D (E.hash a msg) = k := by
    simp only [hn, Option.getD_some]
  generalize hf : (fun d h => (GoCompact.nonceRFC6979 rounds d h).getD 0) = f at *
  obtain ⟨b, hb⟩ := (C154_succeeds_iff ops hops f priv (E.hash a msg) hp (by omega) (by rw [hnk]; exact h2) G hG).1.2
    (by rw [hnk]; exact ⟨hr, hz⟩)
  have hs := fun fuel rand => sign_compact_ok E ops f fuel rand scheme a hname alg priv hk msg opt b hb
  exact ⟨_, hs, (C154_sign_verify E ops f 0 0 [] [] scheme a hname alg priv hk msg hm opt _ (hs 0 [])).2⟩

/-! ## Known answer -/

/-- The published example: private key 1, SHA-256 of "Satoshi Nakamoto"; one round. -/
theorem satoshi : GoCompact.nonceRFC6979 1 1
    (beFix 32 0xa0dc65ffca799873cbea0ac274015b9526505daaaed385155425f7337704883e) =
      some 0x8f8a276c19f4149656b280621e358cce24f5f52542772691ee69063b74f15d15 := by decide +kernel

/-- `refSig` with a hash function that has the digest of the example. -/
def satoshiSig : Signature.Ext :=
  { refSig with extHash := fun _ _ => beFix 32 0xa0dc65ffca799873cbea0ac274015b9526505daaaed385155425f7337704883e }

/-- The hypotheses of C155_sign are met by the example. -/
example : ∃ sig, ∀ fuel rand, sign (withBtcecSign satoshiSig k1Ops fun d h => (GoCompact.nonceRFC6979 1 d h).getD 0) fuel rand 1
    (.ec .ecdsa (keyOn (Curves.secp256k1 "") 1)) abc .other = some (.ok sig) := by
  have := (good_k1 "").fact
  obtain ⟨G, hG⟩ := (good_k1 "").exists_G
  have hp : EthPair (keyOn (Curves.secp256k1 "") 1) :=
    ⟨"", (keyOn_pair (Curves.secp256k1 "") (by decide) 1 (by decide +kernel)).2⟩
  have hx : ∀ k : ℕ, xy (k • G) = k1Ops.baseMult k := fun k => (k1Ops_lawful.base G hG k).symm
  obtain ⟨sig, h, -⟩ := C155_sign satoshiSig k1Ops k1Ops_lawful 1 1 .sha256 (by decide +kernel) .ecdsa
    (keyOn (Curves.secp256k1 "") 1) rfl hp abc (by decide) .other _ satoshi G hG
    (by rw [hx]; decide +kernel) (by rw [hx]; decide +kernel)
  exact ⟨sig, h⟩

end Verif.Props
