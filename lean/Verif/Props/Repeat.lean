import Verif.Props.VRF
import Verif.Props.SM2Nonce
/-!
# C134: repeated random numbers

What the random source gives twice, after a restored snapshot for example, is used in two calls. `Vrf` takes its nonce
from the source alone; `sm2.Sign` hashes it with the key and the digest.
-/
namespace Verif.Props
open Verif Verif.Spec Verif.Keypair Verif.VRF
open Verif.Signature (ECPair HashAlg keyOn keyOn_pair)

/-- The challenge and the response in a proof. -/
def challengeOf (c : Curve) (p : Bytes) : Nat := natOfBytes (p.take c.byteSize)
def responseOf (c : Curve) (p : Bytes) : Nat := natOfBytes (p.drop c.byteSize)

/-- Nonce, key, challenge and response satisfy a linear equation. -/
theorem vrf_equation {E : VRF.Ext} (hE : E.Lawful) {t : Alg} {sk : ECPriv} (hk : ECPair E.k1name sk)
    {msg : Bytes} (hm : msg.length < 2 ^ 59) {h : Heap} {nonce : Bytes} {draws : Nat → List Nat}
    {fuel : Nat} {spare : Bytes} {h1 : Heap} {v p : Slice}
    (hr : vrf E h (.ec t sk) msg (.ok nonce) draws fuel spare = some (.ok (h1, v, p))) :
    ((natOfBytes nonce : Nat) : ZMod sk.pub.curve.N) =
      responseOf sk.pub.curve (p.read h1) + challengeOf sk.pub.curve (p.read h1) * (sk.D : ZMod sk.pub.curve.N) ∧
    (challengeOf sk.pub.curve (p.read h1) : ZMod sk.pub.curve.N) ≠ 0 ∧
    challengeOf sk.pub.curve (p.read h1) < sk.pub.curve.N ∧ (p.read h1).length = 2 * sk.pub.curve.byteSize := by
  have hg := good_of_mem E.k1name hE.k1name _ hk.1
  have := hg.fact
  obtain ⟨G, hG⟩ := hg.exists_G
  obtain ⟨a, rb, H, s, Hp, hv, hn, v1, v2, hsk, hD, q0, q1, q2, q3, q4, q5, q6⟩ := vrf_made hE hk hm hr G hG
  cases hn
  have hN := (Signature.byteSize_bound hk.1).1
  have hN0 : (0 : Int) < sk.pub.curve.N := by exact_mod_cast hg.order_prime.pos
  obtain ⟨r1, r2, -⟩ := (C49_challenge_range E a _ _).1 fuel s q4
  have hNpos := hg.order_prime.pos
  have ht := Int.emod_lt_of_pos (((natOfBytes nonce : Nat) : Int) - (s : Int) * sk.D) hN0
  have ht0 := Int.emod_nonneg (((natOfBytes nonce : Nat) : Int) - (s : Int) * sk.D) hN0.ne'
  unfold challengeOf responseOf
  rw [q5, List.take_left' (beFix_length _ _), List.drop_left' (beFix_length _ _),
    natOfBytes_beFix_of_lt (by omega), natOfBytes_beFix_of_lt (by omega)]
  refine ⟨?_, ?_, by omega, by rw [List.length_append, beFix_length, beFix_length]; omega⟩
  · have e : (((((natOfBytes nonce : Nat) : Int) - (s : Int) * sk.D) % sk.pub.curve.N).toNat : ZMod sk.pub.curve.N) =
        (((natOfBytes nonce : Nat) : Int) - (s : Int) * sk.D : Int) := by
      rw [← Int.cast_natCast, Int.toNat_of_nonneg ht0]
      exact ZMod.intCast_mod _ _
    rw [e]
    push_cast
    ring
  · rw [Ne, ZMod.natCast_eq_zero_iff]
    exact fun hd => absurd (Nat.le_of_dvd (by omega) hd) (by omega)

/-- **C134** (negation) Whoever knows the random number of one call of `Vrf` knows the private key: it is computed from
that number and the two numbers in the proof. -/
theorem C134_known_fails (E : VRF.Ext) (hE : E.Lawful) (t : Alg) (sk : ECPriv) (hk : ECPair E.k1name sk)
    (msg : Bytes) (hm : msg.length < 2 ^ 59) (h : Heap) (nonce : Bytes) (draws : Nat → List Nat)
    (fuel : Nat) (spare : Bytes) (h1 : Heap) (v p : Slice)
    (hr : vrf E h (.ec t sk) msg (.ok nonce) draws fuel spare = some (.ok (h1, v, p))) :
    (sk.D : ZMod sk.pub.curve.N) =
      (natOfBytes nonce - responseOf sk.pub.curve (p.read h1)) * (challengeOf sk.pub.curve (p.read h1) : ZMod sk.pub.curve.N)⁻¹ := by
  have : Fact sk.pub.curve.N.Prime := ⟨(good_of_mem E.k1name hE.k1name _ hk.1).order_prime⟩
  obtain ⟨e, h0, -, -⟩ := vrf_equation hE hk hm hr
  rw [e]
  field_simp
  ring

/-- **C134** (negation) When the random source gives `Vrf` the same number in two calls with one key, the two proofs, if
they differ, tell the private key. (If the challenges are equal the proofs are equal.) -/
theorem C134_repeated_fails (E : VRF.Ext) (hE : E.Lawful) (t t' : Alg) (sk : ECPriv) (hk : ECPair E.k1name sk)
    (msg msg' : Bytes) (hm : msg.length < 2 ^ 59) (hm' : msg'.length < 2 ^ 59) (h h' : Heap) (nonce : Bytes)
    (draws draws' : Nat → List Nat) (fuel fuel' : Nat) (spare spare' : Bytes) (h1 h1' : Heap) (v p v' p' : Slice)
    (hr : vrf E h (.ec t sk) msg (.ok nonce) draws fuel spare = some (.ok (h1, v, p)))
    (hr' : vrf E h' (.ec t' sk) msg' (.ok nonce) draws' fuel' spare' = some (.ok (h1', v', p')))
    (hne : p.read h1 ≠ p'.read h1') :
    (sk.D : ZMod sk.pub.curve.N) =
      (responseOf sk.pub.curve (p.read h1) - responseOf sk.pub.curve (p'.read h1')) *
        (challengeOf sk.pub.curve (p'.read h1') - challengeOf sk.pub.curve (p.read h1) : ZMod sk.pub.curve.N)⁻¹ := by
  have : Fact sk.pub.curve.N.Prime := ⟨(good_of_mem E.k1name hE.k1name _ hk.1).order_prime⟩
  obtain ⟨e, -, hlt, hl⟩ := vrf_equation hE hk hm hr
  obtain ⟨e', -, hlt', hl'⟩ := vrf_equation hE hk hm' hr'
  have hrange := C49_proof_range E hE t sk hk msg hm h _ draws fuel spare h1 v p hr
  have hrange' := C49_proof_range E hE t' sk hk msg' hm' h' _ draws' fuel' spare' h1' v' p' hr'
  generalize p.read h1 = q at *
  generalize p'.read h1' = q' at *
  have key : (challengeOf sk.pub.curve q' - challengeOf sk.pub.curve q : ZMod sk.pub.curve.N) ≠ 0 := by
    intro h0
    have hs : challengeOf sk.pub.curve q' = challengeOf sk.pub.curve q := by
      have := (ZMod.natCast_eq_natCast_iff' _ _ _).1 (sub_eq_zero.1 h0)
      rwa [Nat.mod_eq_of_lt hlt', Nat.mod_eq_of_lt hlt] at this
    rw [hs] at e'
    have ht : responseOf sk.pub.curve q = responseOf sk.pub.curve q' := by
      have := (ZMod.natCast_eq_natCast_iff' _ _ _).1 (add_right_cancel (e.symm.trans e'))
      have r1 : responseOf sk.pub.curve q < sk.pub.curve.N := hrange.2.2.2
      have r2 : responseOf sk.pub.curve q' < sk.pub.curve.N := hrange'.2.2.2
      rwa [Nat.mod_eq_of_lt r1, Nat.mod_eq_of_lt r2] at this
    apply hne
    have c1 := natOfBytes_inj (a := q'.take sk.pub.curve.byteSize) (b := q.take sk.pub.curve.byteSize)
      (by rw [List.length_take, List.length_take]; omega) hs
    have c2 := natOfBytes_inj (a := q.drop sk.pub.curve.byteSize) (b := q'.drop sk.pub.curve.byteSize)
      (by rw [List.length_drop, List.length_drop]; omega) ht
    rw [← List.take_append_drop sk.pub.curve.byteSize q, ← c1, c2, List.take_append_drop]
  rw [eq_mul_inv_iff_mul_eq₀ key]
  linear_combination e - e'

/-- **C134** The part that holds: when the random source gives `sm2.Sign` the same bytes in two calls with one key, and the
digests differ, then the nonces of the two signatures come from AES-CTR streams whose keys are truncated SHA-512
values of different strings. Missing: the same for `Vrf`, of which it is false. -/
theorem C134_sm2_partial (E : SM2.Ext) (hE : E.Lawful) (H : Bytes → Bytes)  (fuel fuel' : Nat) (rand rand' : Bytes)
    (hrand : rand.take 16 = rand'.take 16) (priv : ECPriv) (id id' msg msg' : Bytes) (r s r' s' : Nat)
    (h : SM2.sign E H fuel rand priv id msg = some (.ok (r, s)))
    (h' : SM2.sign E H fuel' rand' priv id' msg' = some (.ok (r', s')))
    (hd : ∀ z z', SM2.getZ H msg priv.pub id = .ok z → SM2.getZ H msg' priv.pub id' = .ok z' → H z ≠ H z') :
    ∃ z z' seed seed' i i', SM2.getZ H msg priv.pub id = .ok z ∧ SM2.getZ H msg' priv.pub id' = .ok z' ∧
      seed = bytesOfNat priv.D ++ rand.take 16 ++ H z ∧ seed' = bytesOfNat priv.D ++ rand.take 16 ++ H z' ∧
      seed ≠ seed' ∧
      (s + (r + s) * priv.D) % SM2.n =
        natOfBytes (E.ctr ((E.sha512 seed).take 32) (40 * i) 40) % (SM2.n - 2) + 1 ∧
      (s' + (r' + s') * priv.D) % SM2.n =
        natOfBytes (E.ctr ((E.sha512 seed').take 32) (40 * i') 40) % (SM2.n - 2) + 1 := by
  obtain ⟨-, z, hz, i, -, e⟩ := sign_nonce E hE H fuel rand priv id msg r s h
  obtain ⟨-, z', hz', i', -, e'⟩ := sign_nonce E hE H fuel' rand' priv id' msg' r' s' h'
  rw [← hrand] at e'
  exact ⟨z, z', _, _, i, i', hz, hz', rfl, rfl, fun he => hd z z' hz hz' (List.append_cancel_left he), e, e'⟩

/-- The reference instance with a hash that depends on all bytes. -/
def refVrfSum : VRF.Ext := { refVrf with extHash := fun a m => beFix (size a) (natOfBytes m % (256 ^ size a - 189)) }

theorem refVrfSum_lawful : refVrfSum.Lawful :=
  { refVrf_lawful with
    size := by
      intro a m
      show (beFix (size a) _).length = size a
      rw [beFix_length] }

/-- The proof that `Vrf` makes of a message of one byte with the private key 5 on P-256 and the random number 3. -/
def proofFive (b : Byte) : Option (Res Bytes) :=
  (vrf refVrfSum ⟨fun _ => [], 0⟩ (.ec .ecdsa (keyOn Curves.p256 5)) [b] (.ok [3]) (fun _ => []) 2 []).map
    fun r => r.map fun q => q.2.2.read q.1

/-- Two calls of `Vrf` with one key and the same random number: the proofs differ. -/
example : ECPair refVrfSum.k1name (keyOn Curves.p256 5) ∧
    (match proofFive 0x63, proofFive 0x64 with | some (.ok p), some (.ok q) => p != q | _, _ => false) = true :=
  ⟨keyOn_pair _ (by decide) _ (by decide +kernel), by decide +kernel⟩

end Verif.Props
