import Verif.Props.VRFUnique
import Verif.Props.Repeat
/-!
# C138: VRF values of different messages

When two messages have the same VRF value under one key, two different strings that the VRF hashes have digests that agree
modulo the prime of the curve.
-/
namespace Verif.Props
open Verif Verif.Spec Verif.Keypair Verif.VRF
open Verif.Signature (ECPair HashAlg keyOn keyOn_pair)

/-- The string whose digest is the candidate number `i` for the hash point of key `pk` and message `msg`. -/
def pointInput (c : Curve) (pk : Nat × Nat) (msg : Bytes) (i : Nat) : Bytes := beFix 4 i ++ (enc c pk ++ msg)

/-- The number in the leading bytes of a digest. -/
def digestNumber (Hs : Bytes → Bytes) (c : Curve) (b : Bytes) : Nat := natOfBytes ((Hs b).take c.byteSize)

/-- Two strings that differ, whose digests agree modulo the prime of the curve. -/
def Collide (Hs : Bytes → Bytes) (c : Curve) (b b' : Bytes) : Prop :=
  b ≠ b' ∧ digestNumber Hs c b % c.P = digestNumber Hs c b' % c.P

theorem pointInput_inj {c : Curve} {pk : Nat × Nat} {m m' : Bytes} {i j : Nat} (hi : i < 100) (hj : j < 100)
    (h : pointInput c pk m i = pointInput c pk m' j) : i = j ∧ m = m' := by
  unfold pointInput at h
  obtain ⟨h1, h2⟩ := List.append_inj h (by rw [beFix_length, beFix_length])
  have h1 := congrArg natOfBytes h1
  rw [natOfBytes_beFix_of_lt (by omega), natOfBytes_beFix_of_lt (by omega)] at h1
  exact ⟨h1, List.append_cancel_left h2⟩

/-- Hash points with the same first coordinate are the same point. -/
theorem hashPoint_y {Hs : Bytes → Bytes} {c : Curve} {a : Int} (hg : GoodCurve c a) (h2 : c.P % 2 = 1)
    {m m' : Bytes} {x y x' y' : Nat} (h : IsHashPoint Hs c a m x y) (h' : IsHashPoint Hs c a m' x' y')
    (hx : x % c.P = x' % c.P) : y = y' := by
  obtain ⟨i, -, -, he, hlt, hon, -⟩ := h
  obtain ⟨j, -, -, he', hlt', hon', -⟩ := h'
  have := hg.fact
  have hxx : ((x : ℕ) : ZMod c.P) = ((x' : ℕ) : ZMod c.P) := (ZMod.natCast_eq_natCast_iff' _ _ _).2 hx
  have hsq : ((y : ℕ) : ZMod c.P) ^ 2 = ((y' : ℕ) : ZMod c.P) ^ 2 := by
    rw [(Affine.onCurve_cast _ _).1 hon, (Affine.onCurve_cast _ _).1 hon', hxx]
  rcases sq_eq_sq_iff_eq_or_eq_neg.1 hsq with h | h
  · have := congrArg ZMod.val h
    rwa [ZMod.val_natCast_of_lt hlt, ZMod.val_natCast_of_lt hlt'] at this
  · have : ((y + y' : ℕ) : ZMod c.P) = 0 := by push_cast; rw [h]; ring
    rw [ZMod.natCast_eq_zero_iff] at this
    obtain ⟨k, hk⟩ := this
    have : k = 0 ∨ k = 1 := by
      by_contra hne
      have : 2 ≤ k := by omega
      nlinarith [hg.prime.pos]
    rcases this with rfl | rfl <;> omega

theorem smul_cancel {c : Curve} {a : Int} (hg : GoodCurve c a) [Fact c.P.Prime] {D : Nat} (hD : D % c.N ≠ 0)
    {A B : Pt c a} (h : D • A = D • B) : A = B := by
  by_contra hne
  apply hD
  rw [← hg.smul_eq_zero_iff (sub_ne_zero.2 hne), smul_sub, h, sub_self]

/-- Hash points whose first coordinates agree come from a collision, if the messages differ. -/
theorem collide_of_points {Hs : Bytes → Bytes} {c : Curve} {a : Int} {pk : Nat × Nat} {m m' : Bytes} {x y x' y' : Nat}
    (hm : m ≠ m') (h : IsHashPoint Hs c a (enc c pk ++ m) x y) (h' : IsHashPoint Hs c a (enc c pk ++ m') x' y')
    (hx : x % c.P = x' % c.P) :
    ∃ i < 100, ∃ j < 100, Collide Hs c (pointInput c pk m i) (pointInput c pk m' j) := by
  obtain ⟨i, hi, rfl, -⟩ := h
  obtain ⟨j, hj, rfl, -⟩ := h'
  exact ⟨i, hi, j, hj, fun e => hm (pointInput_inj hi hj e).2, hx⟩

/-- **C138** The values of two messages under one key are the same if and only if the first coordinates of their hash
points are: multiplication by the private key adds no coincidence, and the second coordinate removes none. -/
theorem C138_equal_iff (E : VRF.Ext) (hE : E.Lawful) (t t' : Alg) (sk : ECPriv) (hk : ECPair E.k1name sk)
    (msg msg' : Bytes) (hm : msg.length < 2 ^ 59) (hm' : msg'.length < 2 ^ 59) (h h' : Heap) (nonce nonce' : Res Bytes)
    (draws draws' : Nat → List Nat) (fuel fuel' : Nat) (spare spare' : Bytes) (h1 h1' : Heap) (v p v' p' : Slice)
    (hr : vrf E h (.ec t sk) msg nonce draws fuel spare = some (.ok (h1, v, p)))
    (hr' : vrf E h' (.ec t' sk) msg' nonce' draws' fuel' spare' = some (.ok (h1', v', p'))) :
    ∃ a hx hy hx' hy', VrfHash E.k1name sk.pub.curve a ∧
      IsHashPoint (E.hash a) sk.pub.curve (curveA E.k1name sk.pub.curve)
        (enc sk.pub.curve (sk.pub.x, sk.pub.y) ++ msg) hx hy ∧
      IsHashPoint (E.hash a) sk.pub.curve (curveA E.k1name sk.pub.curve)
        (enc sk.pub.curve (sk.pub.x, sk.pub.y) ++ msg') hx' hy' ∧
      (v.read h1 = v'.read h1' ↔ hx % sk.pub.curve.P = hx' % sk.pub.curve.P) := by
  have hg := good_of_mem E.k1name hE.k1name _ hk.1
  have hf := supported_goodField E.k1name _ hk.1
  have := hg.fact
  obtain ⟨a, hx, hy, Hp, e1, e2, e3, e4⟩ := C46_value E hE t sk hk msg hm h nonce draws fuel spare h1 v p hr
  obtain ⟨a', hx', hy', Hp', e1', e2', e3', e4'⟩ :=
    C46_value E hE t' sk hk msg' hm' h' nonce' draws' fuel' spare' h1' v' p' hr'
  have ea : a = a' := by
    have := (getHash_iff hE _ hk.1 a).2 e1
    rw [(getHash_iff hE _ hk.1 a').2 e1'] at this
    exact (Option.some.inj this).symm
  subst ea
  refine ⟨a, hx, hy, hx', hy', e1, e2, e2', ?_⟩
  rw [e4, e4']
  constructor
  · intro e
    have := smul_cancel hg hk.2.2.1 (enc_inj hg (hf.fits) e)
    rw [this, e3'] at e3
    exact (Prod.ext_iff.1 e3).1.symm
  · intro e
    have : Hp = Hp' := Affine.xy_inj hg.ok (by rw [e3, e3', e, hashPoint_y hg hf.odd e2 e2' e])
    rw [this]

/-- **C138** If `Vrf` returns the same value for two different messages under one key, then the hash function of the curve
has two different inputs, both among the first hundred for key and message, whose digests agree modulo the prime of the
curve. -/
theorem C138_collision (E : VRF.Ext) (hE : E.Lawful) (t t' : Alg) (sk : ECPriv) (hk : ECPair E.k1name sk)
    (msg msg' : Bytes) (hm : msg.length < 2 ^ 59) (hm' : msg'.length < 2 ^ 59) (h h' : Heap) (nonce nonce' : Res Bytes)
    (draws draws' : Nat → List Nat) (fuel fuel' : Nat) (spare spare' : Bytes) (h1 h1' : Heap) (v p v' p' : Slice)
    (hr : vrf E h (.ec t sk) msg nonce draws fuel spare = some (.ok (h1, v, p)))
    (hr' : vrf E h' (.ec t' sk) msg' nonce' draws' fuel' spare' = some (.ok (h1', v', p')))
    (hne : msg ≠ msg') (hv : v.read h1 = v'.read h1') :
    ∃ a, VrfHash E.k1name sk.pub.curve a ∧ ∃ i < 100, ∃ j < 100,
      Collide (E.hash a) sk.pub.curve (pointInput sk.pub.curve (sk.pub.x, sk.pub.y) msg i)
        (pointInput sk.pub.curve (sk.pub.x, sk.pub.y) msg' j) := by
  obtain ⟨a, hx, hy, hx', hy', e1, e2, e3, e4⟩ := C138_equal_iff E hE t t' sk hk msg msg' hm hm' h h' nonce nonce' draws
    draws' fuel fuel' spare spare' h1 h1' v p v' p' hr hr'
  exact ⟨a, e1, collide_of_points hne e2 e3 (e4.1 hv)⟩

/-- **C138** The same for values that `Verify` accepts, whoever made them: if it accepts one value for two different
messages under one key, then either two inputs of the hash function collide, or one of the two proofs has a challenge that
equals a number that does not depend on the hash function (`guess`, as in C110). -/
theorem C138_accepted (k1name : String) (hk1 : k1name = "" ∨ k1name = "secp256k1") (c : Curve)
    (hc : c ∈ Curves.all k1name) [Fact c.P.Prime] (G Q : Pt c (curveA k1name c)) (hG : xy G = (c.Gx, c.Gy))
    (D : Nat) (hQ : Q = D • G) (hQ0 : Q ≠ 0) :
    ∃ guess : (Hp V A B : Pt c (curveA k1name c)) → Nat,
      ∀ (E : VRF.Ext), E.Lawful → E.k1name = k1name → ∀ (t t' : Alg) (alg : HashAlg), VrfHash k1name c alg →
      ∀ (h h₂ : Heap) (msg msg' : Bytes), msg.length < 2 ^ 59 → msg'.length < 2 ^ 59 → msg ≠ msg' →
      ∀ (v p v' p' : Slice), v.Valid h → p.Valid h → v'.Valid h₂ → p'.Valid h₂ → v.read h = v'.read h₂ →
      ∀ (draws draws' : Nat → List Nat) (fuel fuel' : Nat) (h' h₂' : Heap),
        verify E h (.ec t ⟨c, (xy Q).1, (xy Q).2⟩) msg v p draws fuel = some (.ok (h', true)) →
        verify E h₂ (.ec t' ⟨c, (xy Q).1, (xy Q).2⟩) msg' v' p' draws' fuel' = some (.ok (h₂', true)) →
        (∃ i < 100, ∃ j < 100, Collide (E.hash alg) c (pointInput c (xy Q) msg i) (pointInput c (xy Q) msg' j)) ∨
        ∃ m b, (m = msg ∧ b = p.read h ∨ m = msg' ∧ b = p'.read h₂) ∧
          ∃ (Hp V : Pt c (curveA k1name c)) (hx hy : Nat),
          IsHashPoint (E.hash alg) c (curveA k1name c) (enc c (xy Q) ++ m) hx hy ∧ xy Hp = (hx % c.P, hy) ∧
          v.read h = enc c (xy V) ∧
            let s := natOfBytes (b.take c.byteSize)
            let t := natOfBytes (b.drop c.byteSize)
            let A := t • G + s • Q
            let B := t • Hp + s • V
            IsChallenge (E.hash alg) c (transcript c (hx, hy) (xy Q) (xy V) (xy A) (xy B)) (guess Hp V A B) := by
  have hg := good_of_mem k1name hk1 c hc
  obtain ⟨guess, H⟩ := C110_wrong_value k1name hk1 c hc G Q hG D hQ hQ0
  refine ⟨guess, ?_⟩
  intro E hE hname t t' alg hv h h₂ msg msg' hm hm' hne v p v' p' b1 b2 b3 b4 hvv draws draws' fuel fuel' h' h₂' r1 r2
  obtain ⟨Hp, V, hx, hy, e1, e2, e3, e4⟩ := H E hE hname t alg hv h msg hm v p b1 b2 draws fuel h' r1
  obtain ⟨Hp', V', hx', hy', f1, f2, f3, f4⟩ := H E hE hname t' alg hv h₂ msg' hm' v' p' b3 b4 draws' fuel' h₂' r2
  rcases e4 with rfl | e4
  · rcases f4 with rfl | f4
    · left
      have hD : D % c.N ≠ 0 := by
        intro hD
        apply hQ0
        rw [hQ, (hg.smul_eq_zero_iff (hg.G_ne_zero hG) D).2 hD]
      have := smul_cancel hg hD (enc_inj hg (supported_goodField k1name c hc).fits (e3.symm.trans (hvv.trans f3)))
      rw [this, f2] at e2
      exact collide_of_points hne e1 f1 (Prod.ext_iff.1 e2).1.symm
    · exact Or.inr ⟨msg', p'.read h₂, Or.inr ⟨rfl, rfl⟩, Hp', V', hx', hy', f1, f2, hvv.trans f3, f4⟩
  · exact Or.inr ⟨msg, p.read h, Or.inl ⟨rfl, rfl⟩, Hp, V, hx, hy, e1, e2, e3, e4⟩

/-- **C138** Points and challenges are hashed apart: the string that is hashed for a point is not that of a challenge unless
the public key is the base point, since the latter begins with the base point and the former with the public key. -/
theorem C138_separate (k1name : String) (hk1 : k1name = "" ∨ k1name = "secp256k1") (c : Curve)
    (hc : c ∈ Curves.all k1name) [Fact c.P.Prime] (G Q : Pt c (curveA k1name c)) (hG : xy G = (c.Gx, c.Gy)) (hQ : Q ≠ G) (msg : Bytes) (i j : Nat) (H Q' V A B : Nat × Nat) :
    pointInput c (xy Q) msg i ≠ beFix 4 j ++ transcript c H Q' V A B := by
  intro h
  apply hQ
  unfold pointInput transcript at h
  obtain ⟨-, h⟩ := List.append_inj h (by rw [beFix_length, beFix_length])
  simp only [List.append_assoc] at h
  have := (List.append_inj h (by rw [enc_length, enc_length])).1
  rw [← hG] at this
  exact enc_inj (good_of_mem k1name hk1 c hc) (supported_goodField k1name c hc).fits this

/-! ## Cases that meet the hypotheses -/

/-- The value of a message of one byte under a key on P-256. -/
def valueOf (E : VRF.Ext) (D : Nat) (b : Byte) : Option (Res Bytes) :=
  (vrf E ⟨fun _ => [], 0⟩ (.ec .ecdsa (keyOn Curves.p256 D)) [b] (.ok [3]) (fun _ => []) 2 []).map
    fun r => r.map fun q => q.2.1.read q.1

def isValue : Option (Res Bytes) → Bool
  | some (.ok _) => true
  | _ => false

/-- With a hash function that ignores the end of its input, two messages have the same value; with another hash function
they have different values. -/
example : ECPair refVrf.k1name (keyOn Curves.p256 2) ∧ isValue (valueOf refVrf 2 0x61) = true ∧
    valueOf refVrf 2 0x61 = valueOf refVrf 2 0x62 ∧
    ECPair refVrfSum.k1name (keyOn Curves.p256 5) ∧ isValue (valueOf refVrfSum 5 0x63) = true ∧
    isValue (valueOf refVrfSum 5 0x64) = true ∧ valueOf refVrfSum 5 0x63 ≠ valueOf refVrfSum 5 0x64 :=
  ⟨keyOn_pair _ (by decide) _ (by decide +kernel), by decide +kernel, by decide +kernel,
    keyOn_pair _ (by decide) _ (by decide +kernel), by decide +kernel, by decide +kernel, by decide +kernel⟩

end Verif.Props
