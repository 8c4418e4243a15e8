import Verif.Props.VRF
/-!
# C110: a wrong VRF value is accepted only if the challenge hash hits one number fixed beforehand

The VRF is used as a lottery: for one key and message there must be one value. A signer who wants another value
accepted chooses a point `V` and commitments `A` and `B`; these are hashed to the challenge. The theorem says
that for every choice there is one number, fixed before the hash is computed, that the challenge has to be.
-/
namespace Verif.Props
open Verif Verif.Keypair Verif.Spec Verif.VRF
open Verif.Signature (ECPair HashAlg keyOn keyOn_pair)

/-- Two openings of the same commitments for a wrong value have the same challenge. -/
theorem one_challenge {c : Curve} {a : Int} (hg : GoodCurve c a) [Fact c.P.Prime] {G : Pt c a}
    (hG : xy G = (c.Gx, c.Gy)) (D : Nat) (Q Hp V : Pt c a) (hQ : Q = D • G)
    (hV : V ≠ D • Hp) (s t s' t' : Nat)
    (hs : s < c.N) (hs' : s' < c.N) (hA : t • G + s • Q = t' • G + s' • Q)
    (hB : t • Hp + s • V = t' • Hp + s' • V) : s = s' := by
  subst hQ
  have hG0 := hg.G_ne_zero hG
  obtain ⟨w, -, hw⟩ := hg.exists_smul hG0 V
  obtain ⟨x, -, hxw⟩ := hg.exists_smul hG0 Hp
  subst hw
  subst hxw
  haveI : Fact c.N.Prime := ⟨hg.order_prime⟩
  simp only [← mul_smul, ← add_smul] at hA hB
  rw [hg.smul_eq_iff hG0] at hA hB
  rw [← ZMod.natCast_eq_natCast_iff'] at hA hB
  push_cast at hA hB
  by_contra hne
  have hss : (s : ZMod c.N) - s' ≠ 0 := by
    intro e
    have := sub_eq_zero.1 e
    rw [ZMod.natCast_eq_natCast_iff', Nat.mod_eq_of_lt hs, Nat.mod_eq_of_lt hs'] at this
    exact hne this
  have hwx : (w : ZMod c.N) = D * x := by
    apply mul_left_cancel₀ hss
    linear_combination hB - (x : ZMod c.N) * hA
  apply hV
  rw [← mul_smul, hg.smul_eq_iff hG0, ← ZMod.natCast_eq_natCast_iff']
  push_cast
  exact hwx

/-- **C110** For every supported curve, base point and public key `Q` there is a function `guess` of points
alone, which knows nothing of the hash function, such that whatever `Verify` accepts is either the one value of
key and message (`D` times the hash point, where `Q = D G`), or the challenge hash of the transcript is the
number that `guess` gives for the points in the transcript. `A` and `B` are the commitments in the transcript.
For all hash functions, messages, values and
proofs. -/
theorem C110_wrong_value (k1name : String) (hk1 : k1name = "" ∨ k1name = "secp256k1") (c : Curve)
    (hc : c ∈ Curves.all k1name) [Fact c.P.Prime] (G Q : Pt c (curveA k1name c)) (hG : xy G = (c.Gx, c.Gy))
    (D : Nat) (hQ : Q = D • G) (hQ0 : Q ≠ 0) :
    ∃ guess : (Hp V A B : Pt c (curveA k1name c)) → Nat,
      ∀ (E : VRF.Ext), E.Lawful → E.k1name = k1name → ∀ (t : Alg) (alg : HashAlg), VrfHash k1name c alg →
      ∀ (h : Heap) (msg : Bytes), msg.length < 2 ^ 59 → ∀ (v p : Slice), v.Valid h → p.Valid h →
      ∀ (draws : Nat → List Nat) (fuel : Nat) (h' : Heap),
        verify E h (.ec t ⟨c, (xy Q).1, (xy Q).2⟩) msg v p draws fuel = some (.ok (h', true)) →
        ∃ (Hp V : Pt c (curveA k1name c)) (hx hy : Nat),
          IsHashPoint (E.hash alg) c (curveA k1name c) (enc c (xy Q) ++ msg) hx hy ∧ xy Hp = (hx % c.P, hy) ∧
          v.read h = enc c (xy V) ∧
          (V = D • Hp ∨
            let s := natOfBytes ((p.read h).take c.byteSize)
            let t := natOfBytes ((p.read h).drop c.byteSize)
            let A := t • G + s • Q
            let B := t • Hp + s • V
            IsChallenge (E.hash alg) c (transcript c (hx, hy) (xy Q) (xy V) (xy A) (xy B)) (guess Hp V A B)) := by
  classical
  have hg := good_of_mem k1name hk1 c hc
  refine ⟨fun Hp V A B =>
    if h : ∃ s : Nat, s < c.N ∧ ∃ t : Nat, t • G + s • Q = A ∧ t • Hp + s • V = B then h.choose else 0, ?_⟩
  intro E hE hname t alg hv h msg hm v p hvv hp draws fuel h' hr
  subst hname
  obtain ⟨hlen, V, Hp, hx, hy, hV, hvr, hH, hHp, hch⟩ :=
    ((C47_verify_iff E hE t c alg hv G Q hG hQ0 h msg hm v p hvv hp draws).1 fuel _ hr).1 ⟨h', rfl⟩
  refine ⟨Hp, V, hx, hy, hH, hHp, hvr, ?_⟩
  by_cases hVD : V = D • Hp
  · exact Or.inl hVD
  · refine Or.inr ?_
    obtain ⟨i, hi, hlt, hmin⟩ := id hch
    have hex : ∃ s : Nat, s < c.N ∧ ∃ t : Nat, t • G + s • Q =
        natOfBytes ((p.read h).drop c.byteSize) • G + natOfBytes ((p.read h).take c.byteSize) • Q ∧
        t • Hp + s • V =
        natOfBytes ((p.read h).drop c.byteSize) • Hp + natOfBytes ((p.read h).take c.byteSize) • V :=
      ⟨_, hlt, _, rfl, rfl⟩
    have he : hex.choose = natOfBytes ((p.read h).take c.byteSize) := by
      obtain ⟨h1, t', h2, h3⟩ := hex.choose_spec
      exact one_challenge hg hG D Q Hp V hQ hVD _ t' _ _ h1 hlt h2 h3
    simp only
    rw [dif_pos hex, he]
    exact hch

/-! ## A case that meets the hypotheses -/

/-- A key, a message, a value and a proof that `Verify` accepts. -/
example : ∃ (h : Heap) (v p : Slice) (h' : Heap), VrfHash refVrf.k1name Curves.p256 .sha256 ∧
    verify refVrf h (.ec .ecdsa (keyOn Curves.p256 2).pub) [0x61] v p (fun _ => []) 2 = some (.ok (h', true)) := by
  have hm : ∃ h1 v p, vrf refVrf ⟨fun _ => [], 0⟩ (.ec .ecdsa (keyOn Curves.p256 2)) [0x61] (.ok [3]) (fun _ => []) 2 [] =
      some (.ok (h1, v, p)) := made_iff (by decide +kernel)
  obtain ⟨h1, v, p, hr⟩ := hm
  obtain ⟨⟨h2, hv⟩, -⟩ := C45_complete refVrf refVrf_lawful .ecdsa (keyOn Curves.p256 2)
    (keyOn_pair _ (by decide) 2 (by decide +kernel)) [0x61] (by decide) _ _ _ _ _ h1 v p hr
  exact ⟨h1, v, p, h2, .p256, hv⟩

end Verif.Props
