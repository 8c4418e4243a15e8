import Verif.Model.VRFHasher
import Verif.Props.VRF
import Verif.Props.SM2Hasher
/-!
# C104: the functions `Evaluate` and `ProofToHash` of package vrf

They take the hash object as an argument. Specification: a hash object is described by a relation `R st m`
("`m` was written since the last reset") that satisfies `HashObjLawful`; nothing is assumed about what was
written before the call.
-/
namespace Verif.Props
open Verif Verif.Spec Verif.VRF Verif.Keypair
open Verif.Signature (HashAlg ECPair keyOn keyOn_pair)

theorem marshal_length {c : Curve} {p : ℕ × ℕ} {b : Bytes} (h : marshal c p = .ok b) :
    b.length = 2 * c.byteSize + 1 := by
  unfold marshal at h
  split_ifs at h
  cases h
  simp only [List.length_cons, List.length_append, beFix_length]
  omega

theorem marshal_ne_err {c : Curve} {p : ℕ × ℕ} {m : String} : marshal c p ≠ .err m := by
  unfold marshal
  split_ifs <;> simp

theorem marshalAll_length {c : Curve} : ∀ (ps : List (ℕ × ℕ)) {b : Bytes}, marshalAll c ps = .ok b →
    b.length = ps.length * (2 * c.byteSize + 1)
  | [], b, h => by cases h; simp
  | p :: ps, b, h => by
    unfold marshalAll at h
    cases h1 : marshal c p with
    | ok x =>
      cases h2 : marshalAll c ps with
      | ok y =>
        rw [h1, h2] at h
        simp only [Res.bind, Res.map, Res.ok.injEq] at h
        rw [← h, List.length_append, marshal_length h1, marshalAll_length ps h2, List.length_cons]
        ring
      | err m => rw [h1, h2] at h; cases h
      | panic m => rw [h1, h2] at h; cases h
    | err m => rw [h1] at h; cases h
    | panic m => rw [h1] at h; cases h

theorem marshalAll_ne_err {c : Curve} {m : String} : ∀ (ps : List (ℕ × ℕ)), marshalAll c ps ≠ .err m
  | [], h => by cases h
  | p :: ps, h => by
    unfold marshalAll at h
    cases h1 : marshal c p with
    | ok x =>
      cases h2 : marshalAll c ps with
      | ok y => rw [h1, h2] at h; cases h
      | err m' => exact marshalAll_ne_err ps h2
      | panic m' => rw [h1, h2] at h; cases h
    | err m' => exact marshal_ne_err h1
    | panic m' => rw [h1] at h; cases h

theorem challengeInput_length {c : Curve} {H pk A B : ℕ × ℕ} {v b : Bytes}
    (h : challengeInput c H pk v A B = .ok b) : b.length = 5 * (2 * c.byteSize + 1) + v.length := by
  unfold challengeInput at h
  cases h1 : marshalAll c [(c.Gx, c.Gy), H, pk] with
  | ok x =>
    cases h2 : marshalAll c [A, B] with
    | ok y =>
      rw [h1, h2] at h
      simp only [Res.bind, Res.map, Res.ok.injEq] at h
      have e1 := marshalAll_length _ h1
      have e2 := marshalAll_length _ h2
      simp only [List.length_cons, List.length_nil] at e1 e2
      rw [← h, List.length_append, List.length_append, e1, e2]
      omega
    | err m => rw [h1, h2] at h; cases h
    | panic m => rw [h1, h2] at h; cases h
  | err m => rw [h1] at h; cases h
  | panic m => rw [h1] at h; cases h

theorem challengeInput_ne_err {c : Curve} {H pk A B : ℕ × ℕ} {v : Bytes} {m : String} :
    challengeInput c H pk v A B ≠ .err m := by
  intro h
  unfold challengeInput at h
  cases h1 : marshalAll c [(c.Gx, c.Gy), H, pk] with
  | ok x =>
    cases h2 : marshalAll c [A, B] with
    | ok y => rw [h1, h2] at h; cases h
    | err m => exact marshalAll_ne_err _ h2
    | panic m => rw [h1, h2] at h; cases h
  | err m => exact marshalAll_ne_err _ h1
  | panic m => rw [h1] at h; cases h

section
variable {σ : Type} {K : SM2.HashObj σ} {E : VRF.Ext} {a : HashAlg} {R : σ → Bytes → Prop}
  (hK : HashObjLawful K (E.hash a) R)
include hK

theorem hashToCurveObj_spec (c : Curve) (m : Bytes) (hm : m.length < 2 ^ 60) (draws : ℕ → List ℕ) :
    ∀ (n i : ℕ) (st : σ), (∃ w, R st w) →
      (∃ w, R (hashToCurveObj K E c m draws n i st).1 w) ∧
      (hashToCurveObj K E c m draws n i st).2 = (hashToCurveFrom E a c m draws n i).map Res.ok
  | 0, i, st, h => ⟨h, rfl⟩
  | n + 1, i, st, h => by
    obtain ⟨m0, h⟩ := h
    have h1 := hK.write _ _ m (hK.write _ _ (beFix 4 i) (hK.reset _ _ h))
    rw [List.nil_append] at h1
    have hs := hK.sum _ _ [2] h1 (by rw [List.length_append, beFix_length]; omega)
    rw [hashToCurveObj, hashToCurveFrom]
    simp only [hs, List.cons_append, List.nil_append]
    cases EC.decodePublicKey E.k1name (List.take (c.byteSize + 1) (2 :: E.hash a (beFix 4 i ++ m))) (some c) (draws i) with
    | none => exact ⟨⟨_, h1⟩, rfl⟩
    | some r =>
      cases r with
      | ok p => exact ⟨⟨_, h1⟩, rfl⟩
      | err e => exact hashToCurveObj_spec c m hm draws n (i + 1) _ ⟨_, h1⟩
      | panic e => exact hashToCurveObj_spec c m hm draws n (i + 1) _ ⟨_, h1⟩

theorem hashToIntObj_spec (c : Curve) (m : Bytes) (hm : m.length < 2 ^ 60) :
    ∀ (n i : ℕ) (st : σ), (∃ w, R st w) →
      (∃ w, R (hashToIntObj K c m n i st).1 w) ∧
      (hashToIntObj K c m n i st).2 = (hashToIntFrom E a c m n i).map Res.ok
  | 0, i, st, h => ⟨h, rfl⟩
  | n + 1, i, st, h => by
    obtain ⟨m0, h⟩ := h
    have h1 := hK.write _ _ m (hK.write _ _ (beFix 4 i) (hK.reset _ _ h))
    rw [List.nil_append] at h1
    have hs := hK.sum _ _ [] h1 (by rw [List.length_append, beFix_length]; omega)
    rw [hashToIntObj, hashToIntFrom]
    simp only [hs, List.nil_append]
    split_ifs
    · exact ⟨⟨_, h1⟩, rfl⟩
    · exact hashToIntObj_spec c m hm n (i + 1) _ ⟨_, h1⟩

/-- The results of `Evaluate` that go with an outcome of the model without the index. -/
def evalResult (E : VRF.Ext) (c : Curve) : Res Bytes → Res (Bytes × Option Bytes)
  | .ok proof => .ok (E.hash .sha256 (proof.drop (2 * c.byteSize)), some proof)
  | .err _ => .ok (nilIndex, none)
  | .panic m => .panic m

omit hK in
theorem size_le (a : HashAlg) : size a ≤ 64 := by cases a <;> decide

theorem evaluateObj_spec (priv : ECPriv) (msg : Bytes) (hm : msg.length < 2 ^ 59) (nonce : Res Bytes)
    (draws : ℕ → List ℕ) (fuel : ℕ) (st : σ) (h : ∃ m, R st m) :
    (∃ m, R (evaluateObj K E (size a) st priv msg nonce draws fuel).1 m) ∧
    (evaluateObj K E (size a) st priv msg nonce draws fuel).2 =
      (evaluate E a priv msg nonce draws fuel).map (evalResult E priv.pub.curve) := by
  have hsz := size_le a
  unfold evaluateObj evaluate
  generalize hc : priv.pub.curve = c
  simp only
  by_cases hn : c.byteSize ≠ size a
  · rw [if_pos hn, if_pos hn]; exact ⟨h, rfl⟩
  rw [if_neg hn, if_neg hn]
  have hn := not_not.1 hn
  cases nonce with
  | err e => exact ⟨h, rfl⟩
  | panic e => exact ⟨h, rfl⟩
  | ok rb =>
    simp only
    cases hp : marshal c (priv.pub.x, priv.pub.y) with
    | err e => exact absurd hp marshal_ne_err
    | panic e => exact ⟨h, rfl⟩
    | ok pkb =>
      have hl := marshal_length hp
      obtain ⟨g1, g2⟩ := hashToCurveObj_spec hK c (pkb ++ msg) (by rw [List.length_append]; omega) draws 100 0 st h
      simp only [g2, hashToCurve]
      generalize (hashToCurveObj K E c (pkb ++ msg) draws 100 0 st).1 = st1 at *
      cases hashToCurveFrom E a c (pkb ++ msg) draws 100 0 with
      | none => exact ⟨g1, rfl⟩
      | some H =>
        simp only [Option.map_some]
        unfold evalWithObj evalWith
        cases H with
        | none => exact ⟨g1, rfl⟩
        | some H =>
          simp only [hc]
          cases hv : marshal c ((E.ops c).mult H priv.D) with
          | err e => exact absurd hv marshal_ne_err
          | panic e => exact ⟨g1, rfl⟩
          | ok v =>
            simp only
            cases hb : challengeInput c H (priv.pub.x, priv.pub.y) v ((E.ops c).baseMult (natOfBytes rb))
                ((E.ops c).mult H (natOfBytes rb)) with
            | err e => exact absurd hb challengeInput_ne_err
            | panic e => exact ⟨g1, rfl⟩
            | ok b =>
              have hl' := challengeInput_length hb
              rw [marshal_length hv] at hl'
              obtain ⟨k1, k2⟩ := hashToIntObj_spec hK c b (by omega) fuel 0 st1 g1
              simp only [k2, evalTail, hashToInt]
              refine ⟨k1, ?_⟩
              cases hashToIntFrom E a c b fuel 0 with
              | none => rfl
              | some s =>
                simp only [Option.map_some, Res.map, evalResult, Option.some.injEq, Res.ok.injEq, Prod.mk.injEq, and_true]
                rw [List.drop_left' (by rw [List.length_append, beFix_length, beFix_length]; omega)]

theorem proofToHashObj_spec (pk : ECPub) (msg proof : Bytes) (hm : msg.length < 2 ^ 59)
    (draws : ℕ → List ℕ) (fuel : ℕ) (st : σ) (h : ∃ m, R st m) :
    (∃ m, R (proofToHashObj K E (size a) st pk msg proof draws fuel).1 m) ∧
    (proofToHashObj K E (size a) st pk msg proof draws fuel).2 = proofToHash E a pk msg proof draws fuel := by
  have hsz := size_le a
  unfold proofToHashObj proofToHash
  obtain ⟨c, px, py⟩ := pk
  simp only
  by_cases hn : c.byteSize ≠ size a
  · rw [if_pos hn, if_pos hn]; exact ⟨h, rfl⟩
  rw [if_neg hn, if_neg hn]
  have hn := not_not.1 hn
  by_cases hq : proof.length ≠ 2 * c.byteSize + (2 * c.byteSize + 1)
  · rw [if_pos hq, if_pos hq]; exact ⟨h, rfl⟩
  rw [if_neg hq, if_neg hq]
  generalize hv : (proof.drop (2 * c.byteSize)).take (2 * c.byteSize + 1) = v
  have hvl : v.length ≤ 2 * c.byteSize + 1 := by rw [← hv, List.length_take]; omega
  cases unmarshal E c v with
  | none => exact ⟨h, rfl⟩
  | some U =>
    simp only
    cases hp : marshal c (px, py) with
    | err e => exact ⟨h, rfl⟩
    | panic e => exact ⟨h, rfl⟩
    | ok pkb =>
      have hl := marshal_length hp
      obtain ⟨g1, g2⟩ := hashToCurveObj_spec hK c (pkb ++ msg) (by rw [List.length_append]; omega) draws 100 0 st h
      simp only [g2, hashToCurve]
      generalize (hashToCurveObj K E c (pkb ++ msg) draws 100 0 st).1 = st1 at *
      cases hashToCurveFrom E a c (pkb ++ msg) draws 100 0 with
      | none => exact ⟨g1, rfl⟩
      | some H =>
        simp only [Option.map_some]
        unfold checkWithObj checkWith
        cases H with
        | none => exact ⟨g1, rfl⟩
        | some H =>
          simp only
          generalize (E.ops c).add ((E.ops c).baseMult (natOfBytes (List.take c.byteSize (List.drop c.byteSize proof))))
            ((E.ops c).mult (px, py) (natOfBytes (List.take c.byteSize proof))) = A
          generalize (E.ops c).add ((E.ops c).mult H (natOfBytes (List.take c.byteSize (List.drop c.byteSize proof))))
            ((E.ops c).mult U (natOfBytes (List.take c.byteSize proof))) = B
          cases hb : challengeInput c H (px, py) v A B with
          | err e => exact ⟨g1, rfl⟩
          | panic e => exact ⟨g1, rfl⟩
          | ok b =>
            have hl' := challengeInput_length hb
            obtain ⟨k1, k2⟩ := hashToIntObj_spec hK c b (by omega) fuel 0 st1 g1
            simp only [k2, checkTail, hashToInt]
            refine ⟨k1, ?_⟩
            cases hashToIntFrom E a c b fuel 0 with
            | none => rfl
            | some s => rfl

end

/-- **C104** `ProofToHash` accepts every proof that `Evaluate` returns and gives the same index, which is the
SHA-256 digest of the VRF value at the end of the proof: for every key pair, every hash function whose digests
are as long as the field elements of the curve, and hash objects that were used in any way before. -/
theorem C104_index (E : VRF.Ext) (hE : E.Lawful) (sk : ECPriv) (hk : ECPair E.k1name sk) (a : HashAlg)
    {σ τ : Type} {K : SM2.HashObj σ} {L : SM2.HashObj τ} {R : σ → Bytes → Prop} {S : τ → Bytes → Prop}
    (hK : HashObjLawful K (E.hash a) R) (hL : HashObjLawful L (E.hash a) S)
    (st : σ) (hst : ∃ m, R st m) (st' : τ) (hst' : ∃ m, S st' m)
    (msg : Bytes) (hm : msg.length < 2 ^ 59) (nonce : Res Bytes) (draws : ℕ → List ℕ) (fuel : ℕ)
    (index proof : Bytes)
    (hr : (evaluateObj K E (size a) st sk msg nonce draws fuel).2 = some (.ok (index, some proof))) :
    (proofToHashObj L E (size a) st' sk.pub msg proof draws fuel).2 = some (.ok index) ∧
    proof.length = 2 * sk.pub.curve.byteSize + (2 * sk.pub.curve.byteSize + 1) ∧
    index = E.hash .sha256 (proof.drop (2 * sk.pub.curve.byteSize)) := by
  rw [(evaluateObj_spec hK sk msg hm nonce draws fuel st hst).2] at hr
  rw [(proofToHashObj_spec hL sk.pub msg proof hm draws fuel st' hst').2]
  obtain ⟨r, he, hr⟩ := Option.map_eq_some_iff.1 hr
  cases r with
  | err m => cases hr
  | panic m => cases hr
  | ok p =>
    simp only [evalResult, Res.ok.injEq, Prod.mk.injEq, Option.some.injEq] at hr
    obtain ⟨e1, rfl⟩ := hr
    have hsz : sk.pub.curve.byteSize = size a := by
      by_contra hne
      unfold evaluate at he
      simp only at he
      rw [if_pos hne] at he
      cases he
    have hn : ∃ rb, nonce = .ok rb := by
      unfold evaluate at he
      simp only at he
      rw [if_neg (not_not.2 hsz)] at he
      cases nonce with
      | ok rb => exact ⟨rb, rfl⟩
      | err m => cases he
      | panic m => cases he
    obtain ⟨rb, rfl⟩ := hn
    have hg := good_of_mem E.k1name hE.k1name _ hk.1
    haveI := hg.fact
    obtain ⟨G, hG, hD, hsk⟩ := pair_cases hE hk
    have hv : FitHash E.k1name sk.pub.curve a := ⟨hk.1, hsz⟩
    generalize hc : sk.pub.curve = c at *
    generalize hd : sk.D = D at *
    subst hsk
    obtain ⟨H, Hp, s, q0, q1, q2, q3, q4, q5⟩ := (evaluate_spec hE hv hG D hD msg hm rb draws).1 fuel p he
    have hpr := proofToHash_made hE hv hG hD hm q0 q2 q3 q4
    rw [← q5] at hpr
    have hl : (beFix c.byteSize s ++ beFix c.byteSize ((((natOfBytes rb : ℕ) : ℤ) - (s : ℤ) * D) % c.N).toNat).length =
        2 * c.byteSize := by
      rw [List.length_append, beFix_length, beFix_length]; omega
    have hdrop : p.drop (2 * c.byteSize) = enc c (xy (D • Hp)) := by
      rw [q5, List.drop_left' hl]
    refine ⟨?_, ?_, e1.symm⟩
    · rw [← e1, hdrop]; exact hpr
    · rw [q5, List.length_append, hl, enc_length]

/-- **C104** `ProofToHash` returns an index exactly for the proofs that satisfy the verification equation, for
every hash function that fits the curve, and the index is the SHA-256 digest of the VRF value. (P-224: the call
may go on for ever, see C15.) -/
theorem C104_proofToHash_iff (E : VRF.Ext) (hE : E.Lawful) (c : Curve) (hc : c ∈ Curves.all E.k1name) (a : HashAlg)
    (ha : c.byteSize = size a) [Fact c.P.Prime] (G Q : Pt c (curveA E.k1name c)) (hG : xy G = (c.Gx, c.Gy)) (hQ : Q ≠ 0)
    {σ : Type} {K : SM2.HashObj σ} {R : σ → Bytes → Prop} (hK : HashObjLawful K (E.hash a) R)
    (st : σ) (hst : ∃ m, R st m) (msg proof : Bytes) (hm : msg.length < 2 ^ 59) (draws : ℕ → List ℕ) :
    (∀ fuel index, (proofToHashObj K E (size a) st ⟨c, (xy Q).1, (xy Q).2⟩ msg proof draws fuel).2 = some (.ok index) →
      index = E.hash .sha256 (proof.drop (2 * c.byteSize)) ∧
      VRF.Accepts (E.hash a) G Q msg (proof.drop (2 * c.byteSize)) (proof.take (2 * c.byteSize))) ∧
    (VRF.Accepts (E.hash a) G Q msg (proof.drop (2 * c.byteSize)) (proof.take (2 * c.byteSize)) → c ≠ Curves.p224 →
      ∃ fuel index, (proofToHashObj K E (size a) st ⟨c, (xy Q).1, (xy Q).2⟩ msg proof draws fuel).2 =
        some (.ok index)) := by
  simp only [fun fuel => (proofToHashObj_spec hK ⟨c, (xy Q).1, (xy Q).2⟩ msg proof hm draws fuel st hst).2]
  by_cases hl : proof.length = 2 * c.byteSize + (2 * c.byteSize + 1)
  · have h1 : (proof.take (2 * c.byteSize)).length = 2 * c.byteSize := by rw [List.length_take]; omega
    have h2 : (proof.drop (2 * c.byteSize)).length = 2 * c.byteSize + 1 := by rw [List.length_drop]; omega
    have hs := proofToHash_spec hE ⟨hc, ha⟩ hG hQ msg (proof.drop (2 * c.byteSize)) (proof.take (2 * c.byteSize)) hm h2 h1 draws
    rw [List.take_append_drop] at hs
    exact ⟨hs.1, hs.2.2.2.2⟩
  · constructor
    · intro fuel index h
      unfold proofToHash at h
      simp only at h
      rw [if_neg (not_not.2 ha), if_pos hl] at h
      cases h
    · rintro ⟨h1, V, Hp, hx, hy, -, h2, -⟩
      have h3 := enc_length c (xy V)
      rw [← h2, List.length_drop] at h3
      rw [List.length_take] at h1
      omega

/-- **C104** With a hash function whose digests are not as long as the field elements, `Evaluate` returns zeros
and nil, `ProofToHash` an error, and the hash object stays as it is. -/
theorem C104_mismatch {σ : Type} (K : SM2.HashObj σ) (E : VRF.Ext) (sz : ℕ) (st : σ) (sk : ECPriv) (pk : ECPub)
    (msg proof : Bytes) (nonce : Res Bytes) (draws : ℕ → List ℕ) (fuel : ℕ) :
    (sk.pub.curve.byteSize ≠ sz →
      evaluateObj K E sz st sk msg nonce draws fuel = (st, some (.ok (List.replicate 32 0, none)))) ∧
    (pk.curve.byteSize ≠ sz → ∃ e, proofToHashObj K E sz st pk msg proof draws fuel = (st, some (.err e))) := by
  constructor
  · intro h
    unfold evaluateObj
    simp only
    rw [if_pos h]; rfl
  · intro h
    unfold proofToHashObj
    simp only
    rw [if_pos h]; exact ⟨_, rfl⟩

/-- **C104** What the hash object was used for before does not matter, and it stays usable: two objects for the
same hash function lead to the same results. -/
theorem C104_history (E : VRF.Ext) (a : HashAlg) {σ τ : Type} {K : SM2.HashObj σ} {L : SM2.HashObj τ}
    {R : σ → Bytes → Prop} {S : τ → Bytes → Prop}
    (hK : HashObjLawful K (E.hash a) R) (hL : HashObjLawful L (E.hash a) S)
    (st : σ) (hst : ∃ m, R st m) (st' : τ) (hst' : ∃ m, S st' m)
    (msg : Bytes) (hm : msg.length < 2 ^ 59) (draws : ℕ → List ℕ) (fuel : ℕ) :
    (∀ sk nonce, (∃ m, R (evaluateObj K E (size a) st sk msg nonce draws fuel).1 m) ∧
      (evaluateObj K E (size a) st sk msg nonce draws fuel).2 =
        (evaluateObj L E (size a) st' sk msg nonce draws fuel).2) ∧
    (∀ pk proof, (∃ m, R (proofToHashObj K E (size a) st pk msg proof draws fuel).1 m) ∧
      (proofToHashObj K E (size a) st pk msg proof draws fuel).2 =
        (proofToHashObj L E (size a) st' pk msg proof draws fuel).2) := by
  constructor
  · intro sk nonce
    obtain ⟨h1, h2⟩ := evaluateObj_spec hK sk msg hm nonce draws fuel st hst
    rw [h2, (evaluateObj_spec hL sk msg hm nonce draws fuel st' hst').2]
    exact ⟨h1, rfl⟩
  · intro pk proof
    obtain ⟨h1, h2⟩ := proofToHashObj_spec hK pk msg proof hm draws fuel st hst
    rw [h2, (proofToHashObj_spec hL pk msg proof hm draws fuel st' hst').2]
    exact ⟨h1, rfl⟩

/-! ## Concrete cases -/

/-- The object that remembers what was written. -/
def listObj (H : Bytes → Bytes) : SM2.HashObj Bytes where
  reset _ := []
  write st p := st ++ p
  sum st inp := .ok (inp ++ H st)

theorem listObj_lawful (H : Bytes → Bytes) : HashObjLawful (listObj H) H (fun st m => st = m) where
  reset _ _ _ := rfl
  write _ _ _ h := by rw [h]; rfl
  sum _ _ _ h _ := by rw [h]; rfl

/-- The SM3 object of this library is lawful for the SM3 of `E`. -/
theorem sm3Obj_lawful_vrf (E : VRF.Ext) : HashObjLawful SM2.sm3Obj (E.hash .sm3) SM3.Rep where
  reset _ _ h := sm3Obj_lawful.reset _ _ h
  write _ _ _ h := sm3Obj_lawful.write _ _ _ h
  sum d m inp h hl := by
    rw [sm3Obj_lawful.sum d m inp h hl]
    rw [show E.hash .sm3 m = Spec.SM3.hash m from sm3Sum_eq m hl]

/-- `Evaluate` returned a proof. -/
def madeObj : Option (Res (Bytes × Option Bytes)) → Bool
  | some (.ok (_, some _)) => true
  | _ => false

theorem madeObj_iff {o : Option (Res (Bytes × Option Bytes))} (h : madeObj o = true) :
    ∃ i p, o = some (.ok (i, some p)) := by
  unfold madeObj at h
  split at h
  next i p => exact ⟨i, p, rfl⟩
  next => cases h

/-- Proofs are made with P-256 and SHA-256, with P-256 and SHA3-256 (a pair that `Vrf` never chooses), and with
P-384, by objects that were written to before; no hash function fits P-521. -/
example : (∀ x ∈ [(keyOn Curves.p256 2, HashAlg.sha256), (keyOn Curves.p256 2, .sha3_256), (keyOn Curves.p384 3, .sha384)],
    ECPair refVrf.k1name x.1 ∧ ∃ i p, (evaluateObj (listObj (refVrf.hash x.2)) refVrf (size x.2) [7, 7] x.1 [0x61]
      (.ok [3]) (fun _ => []) 2).2 = some (.ok (i, some p))) ∧
    (∀ a, Curves.p521.byteSize ≠ size a) := by
  constructor
  · intro x hx
    refine ⟨?_, madeObj_iff ?_⟩
    · simp only [List.mem_cons, List.not_mem_nil, or_false] at hx
      rcases hx with rfl | rfl | rfl
      · exact keyOn_pair _ (by decide) 2 (by decide +kernel)
      · exact keyOn_pair _ (by decide) 2 (by decide +kernel)
      · exact keyOn_pair _ (by decide) 3 (by decide +kernel)
    · revert x
      decide +kernel
  · intro a
    have := size_le a
    have : Curves.p521.byteSize = 66 := rfl
    omega

end Verif.Props
