import Verif.Spec.VRF
import Verif.Lemmas.SM2Enc
import Verif.Lemmas.Slice
import Verif.Lemmas.Signature
import Verif.Props.KeyGen
import Verif.Props.EC
/-!
# Lemmas about the VRF model
-/
namespace Verif.VRF
open Verif.Keypair Verif.Spec Verif.EC
open Verif.Signature (HashAlg)

variable {E : Ext}

theorem hash_length (hE : E.Lawful) (a : HashAlg) (m : Bytes) (hm : m.length < 2 ^ 61) :
    (E.hash a m).length = size a := by
  unfold Ext.hash
  split
  · exact SM2.sm3Sum_length m hm
  · exact hE.size _ m

/-! ## Hashing to the curve -/

theorem p224_or {k1name : String} (c : Curve) (hc : c ∈ Curves.all k1name) :
    c = Curves.p224 ∨ c.P % 4 = 3 := by
  simp only [Curves.all, List.mem_cons, List.not_mem_nil, or_false] at hc
  rcases hc with h | h | h | h | h | h
  · exact Or.inl h
  · right; rw [h]; decide +kernel
  · right; rw [h]; decide +kernel
  · right; rw [h]; decide +kernel
  · right; rw [h]; exact (show (Curves.secp256k1 "").P % 4 = 3 by decide +kernel)
  · right; rw [h]; decide +kernel

/-- What decoding a candidate does. -/
theorem decode_candidate (hE : E.Lawful) {c : Curve} (hc : c ∈ Curves.all E.k1name) (d : Bytes)
    (hd : d.length = c.byteSize) (draws : List Nat) :
    (∀ p, decodePublicKey E.k1name (2 :: d) (some c) draws = some (.ok p) →
      p.x = natOfBytes d ∧ p.y % 2 = 0 ∧ p.y < c.P ∧ OnCurve c (curveA E.k1name c) p.x p.y) ∧
    (∀ m, decodePublicKey E.k1name (2 :: d) (some c) draws = some (.err m) →
      ∀ y', ¬ OnCurve c (curveA E.k1name c) (natOfBytes d) y') ∧
    (∀ m, decodePublicKey E.k1name (2 :: d) (some c) draws ≠ some (.panic m)) ∧
    (c.P % 4 = 3 → decodePublicKey E.k1name (2 :: d) (some c) draws ≠ none) := by
  have hF := Props.supported_goodField E.k1name c hc
  haveI : Fact c.P.Prime := ⟨hF.prime⟩
  have e := decode_compressed E.k1name c 2 (Or.inl rfl) d [] hd draws
  rw [List.append_nil] at e
  rw [e]
  have hr := ySquareOf_range E.k1name c hF.prime.pos (natOfBytes d)
  obtain ⟨s1, s2, s3, s4⟩ := Props.C13_curveSqrt c.P hF.prime hF.odd _ hr.1 hr.2 draws
  refine ⟨?_, ?_, ?_, ?_⟩
  · intro p hp
    obtain ⟨h1, h2, h3, h4, h5⟩ := deCompress_ok E.k1name _ (by decide) d c hF.prime hF.odd draws p hp
    have hodd := hF.odd
    have h4' : p.y % 2 = 0 := h4
    exact ⟨h2, h4', by omega, by rw [Props.curveA_eq, onCurve_iff]; exact h5⟩
  · intro m hm y' hy'
    have hy2 := hy'
    rw [Props.curveA_eq, onCurve_iff] at hy'
    cases hs : curveSqrt (ySquareOf E.k1name c (natOfBytes d)) c.P draws with
    | none => rw [deCompress_run _ _ _ _ _ hs] at hm; cases hm
    | some o =>
      cases o with
      | some r => rw [deCompress_some _ _ _ _ _ _ hs] at hm; cases hm
      | none =>
        rcases s2 hs with h | ⟨h0, h4⟩
        · apply h
          refine ⟨(y' : ZMod c.P), ?_⟩
          rw [← hy']
          have := (ZMod.intCast_mod ((y' : Int) * y') c.P)
          rw [this]; push_cast; rfl
        · -- a root of the cubic gives a point of order two
          rcases p224_or c hc with h | h
          · refine Props.p224_y_ne_zero E.k1name (by rcases hE.k1name with e | e <;> rw [e] <;> decide)
              (natOfBytes d) 0 ?_ rfl
            rw [← h, Props.curveA_eq, onCurve_iff, h0]
            simp
          · omega
  · intro m hm
    cases hs : curveSqrt (ySquareOf E.k1name c (natOfBytes d)) c.P draws with
    | none => rw [deCompress_run _ _ _ _ _ hs] at hm; cases hm
    | some o =>
      cases o with
      | some r => rw [deCompress_some _ _ _ _ _ _ hs] at hm; cases hm
      | none => rw [deCompress_none _ _ _ _ _ hs] at hm; cases hm
  · intro h3 hm
    cases hs : curveSqrt (ySquareOf E.k1name c (natOfBytes d)) c.P draws with
    | none => exact s4 (Or.inl h3) hs
    | some o =>
      cases o with
      | some r => rw [deCompress_some _ _ _ _ _ _ hs] at hm; cases hm
      | none => rw [deCompress_none _ _ _ _ _ hs] at hm; cases hm

/-- The candidate bytes have the right length. -/
theorem candidate_bytes (hE : E.Lawful) {c : Curve} {a : HashAlg} (ha : c.byteSize = size a) (m : Bytes)
    (hm : m.length < 2 ^ 60) (i : Nat) :
    (E.hash a (beFix 4 i ++ m)).length = c.byteSize := by
  rw [ha]; exact hash_length hE a _ (by rw [List.length_append, beFix_length]; omega)

theorem cand_eq (hE : E.Lawful) {c : Curve} {a : HashAlg} (ha : c.byteSize = size a) (m : Bytes)
    (hm : m.length < 2 ^ 60) (i : Nat) :
    natOfBytes (E.hash a (beFix 4 i ++ m)) = cand (E.hash a) c m i := by
  unfold cand
  rw [List.take_of_length_le (candidate_bytes hE ha m hm i).le]

theorem cand_lt (hE : E.Lawful) {c : Curve} {a : HashAlg} (ha : c.byteSize = size a) (m : Bytes)
    (hm : m.length < 2 ^ 60) (i : Nat) : cand (E.hash a) c m i < 256 ^ c.byteSize := by
  rw [← cand_eq hE ha m hm, ← candidate_bytes hE ha m hm i]
  exact natOfBytes_lt _

theorem hashToCurveFrom_spec (hE : E.Lawful) {c : Curve} (hc : c ∈ Curves.all E.k1name) {a : HashAlg}
    (ha : c.byteSize = size a) (m : Bytes) (hm : m.length < 2 ^ 60) (draws : Nat → List Nat) :
    ∀ n i, (∀ j < i, ∀ y', ¬ OnCurve c (curveA E.k1name c) (cand (E.hash a) c m j) y') →
    (∀ H, hashToCurveFrom E a c m draws n i = some (some H) →
      ∃ k < i + n, H.1 = cand (E.hash a) c m k ∧ H.2 % 2 = 0 ∧ H.2 < c.P ∧
        OnCurve c (curveA E.k1name c) H.1 H.2 ∧
        ∀ j < k, ∀ y', ¬ OnCurve c (curveA E.k1name c) (cand (E.hash a) c m j) y') ∧
    (hashToCurveFrom E a c m draws n i = some none →
      ∀ j < i + n, ∀ y', ¬ OnCurve c (curveA E.k1name c) (cand (E.hash a) c m j) y') ∧
    (c.P % 4 = 3 → hashToCurveFrom E a c m draws n i ≠ none)
  | 0, i, hi => by
    unfold hashToCurveFrom
    exact ⟨fun H h => by simp at h, fun _ => hi, fun _ => by simp⟩
  | n + 1, i, hi => by
    have hl := candidate_bytes hE ha m hm i
    obtain ⟨d1, d2, d3, d4⟩ := decode_candidate hE hc _ hl (draws i)
    rw [cand_eq hE ha m hm i] at d1 d2
    have ht : (2 :: E.hash a (beFix 4 i ++ m)).take (c.byteSize + 1) = 2 :: E.hash a (beFix 4 i ++ m) := by
      apply List.take_of_length_le
      rw [List.length_cons, hl]
    unfold hashToCurveFrom
    simp only [ht]
    cases hd : decodePublicKey E.k1name (2 :: E.hash a (beFix 4 i ++ m)) (some c) (draws i) with
    | none => exact ⟨fun H h => by simp at h, fun h => by simp at h, fun h3 => absurd hd (d4 h3)⟩
    | some r =>
      cases r with
      | panic m => exact absurd hd (d3 m)
      | ok p =>
        obtain ⟨e1, e2, e3, e4⟩ := d1 p hd
        refine ⟨fun H h => ?_, fun h => by simp at h, fun _ => by simp⟩
        simp only [Option.some.injEq] at h
        subst h
        exact ⟨i, by omega, e1, e2, e3, e4, hi⟩
      | err msg =>
        have hno := d2 msg hd
        have hi' : ∀ j < i + 1, ∀ y', ¬ OnCurve c (curveA E.k1name c) (cand (E.hash a) c m j) y' := by
          intro j hj
          rcases Nat.lt_succ_iff_lt_or_eq.1 hj with h | rfl
          · exact hi j h
          · exact hno
        obtain ⟨r1, r2, r3⟩ := hashToCurveFrom_spec hE hc ha m hm draws n (i + 1) hi'
        have e : i + (n + 1) = i + 1 + n := by omega
        rw [e]
        exact ⟨r1, r2, r3⟩

/-- `hashToCurve` returns the hash point, or nil when none of the 100 candidates is on the curve. -/
theorem hashToCurve_spec (hE : E.Lawful) {c : Curve} (hc : c ∈ Curves.all E.k1name) {a : HashAlg}
    (ha : c.byteSize = size a) (m : Bytes) (hm : m.length < 2 ^ 60) (draws : Nat → List Nat) :
    (∀ H, hashToCurve E a c m draws = some (some H) →
      IsHashPoint (E.hash a) c (curveA E.k1name c) m H.1 H.2) ∧
    (hashToCurve E a c m draws = some none →
      ¬ ∃ x y, IsHashPoint (E.hash a) c (curveA E.k1name c) m x y) ∧
    (c ≠ Curves.p224 → hashToCurve E a c m draws ≠ none) := by
  obtain ⟨h1, h2, h3⟩ := hashToCurveFrom_spec hE hc ha m hm draws 100 0 (by simp)
  rw [Nat.zero_add] at h1 h2
  refine ⟨h1, fun hn => ?_, fun hne => h3 ((p224_or c hc).resolve_left hne)⟩
  rintro ⟨x, y, i, hi, rfl, -, -, hon, -⟩
  exact h2 hn i hi y hon

/-- The hash point is unique. -/
theorem hashPoint_unique {Hs : Bytes → Bytes} {c : Curve} {a : Int} (hg : GoodCurve c a) (h2 : c.P % 2 = 1)
    {m : Bytes} {x y x' y' : Nat} (h : IsHashPoint Hs c a m x y) (h' : IsHashPoint Hs c a m x' y') :
    x = x' ∧ y = y' := by
  obtain ⟨i, -, rfl, he, hlt, hon, hno⟩ := h
  obtain ⟨j, -, rfl, he', hlt', hon', hno'⟩ := h'
  have hij : i = j := by
    rcases Nat.lt_trichotomy i j with h | h | h
    · exact absurd hon (hno' i h y)
    · exact h
    · exact absurd hon' (hno j h y')
  subst hij
  refine ⟨rfl, ?_⟩
  haveI := hg.fact
  have hsq : ((y : ℕ) : ZMod c.P) ^ 2 = ((y' : ℕ) : ZMod c.P) ^ 2 := by
    rw [(Affine.onCurve_cast _ _).1 hon, (Affine.onCurve_cast _ _).1 hon']
  rcases sq_eq_sq_iff_eq_or_eq_neg.1 hsq with h | h
  · have := congrArg ZMod.val h
    rwa [ZMod.val_natCast_of_lt hlt, ZMod.val_natCast_of_lt hlt'] at this
  · have : ((y + y' : ℕ) : ZMod c.P) = 0 := by push_cast; rw [h]; ring
    rw [ZMod.natCast_eq_zero_iff] at this
    obtain ⟨k, hk⟩ := this
    have : k = 0 ∨ k = 1 := by
      by_contra hne
      have : 2 ≤ k := by omega
      nlinarith [hg.prime.pos]
    rcases this with rfl | rfl <;> omega

/-! ## Hashing to an integer -/

theorem hashToIntFrom_spec (a : HashAlg) (c : Curve) (b : Bytes) : ∀ fuel i,
    (∀ j < i, c.N ≤ cand (E.hash a) c b j + 1) → ∀ s, hashToIntFrom E a c b fuel i = some s →
      IsChallenge (E.hash a) c b s
  | 0, i, _, s, h => by simp [hashToIntFrom] at h
  | fuel + 1, i, hi, s, h => by
    unfold hashToIntFrom at h
    simp only at h
    split_ifs at h with hk
    · rw [← Option.some.inj h]
      exact ⟨i, rfl, by omega, hi⟩
    · refine hashToIntFrom_spec a c b fuel (i + 1) ?_ s h
      intro j hj
      rcases Nat.lt_succ_iff_lt_or_eq.1 hj with h | rfl
      · exact hi j h
      · unfold cand; omega

theorem hashToInt_spec {a : HashAlg} {c : Curve} {b : Bytes} {fuel s : Nat}
    (h : hashToInt E a c b fuel = some s) : IsChallenge (E.hash a) c b s :=
  hashToIntFrom_spec a c b fuel 0 (by simp) s h

theorem challenge_unique {Hs : Bytes → Bytes} {c : Curve} {b : Bytes} {s s' : Nat}
    (h : IsChallenge Hs c b s) (h' : IsChallenge Hs c b s') : s = s' := by
  obtain ⟨i, rfl, hlt, hno⟩ := h
  obtain ⟨j, rfl, hlt', hno'⟩ := h'
  rcases Nat.lt_trichotomy i j with h | h | h
  · have := hno' i h; omega
  · rw [h]
  · have := hno j h; omega

theorem hashToIntFrom_complete (a : HashAlg) (c : Curve) (b : Bytes) (n : Nat) : ∀ i,
    cand (E.hash a) c b (i + n) + 1 < c.N → (∀ j, i ≤ j → j < i + n → c.N ≤ cand (E.hash a) c b j + 1) →
    hashToIntFrom E a c b (n + 1) i = some (cand (E.hash a) c b (i + n) + 1) := by
  induction n with
  | zero =>
    intro i hlt _
    simp only [Nat.add_zero] at hlt ⊢
    unfold cand at hlt ⊢
    unfold hashToIntFrom
    simp only
    rw [if_pos (by omega)]
  | succ n ih =>
    intro i hlt hno
    unfold hashToIntFrom
    simp only
    have := hno i (le_refl _) (by omega)
    rw [if_neg (show ¬ natOfBytes _ < _ by unfold cand at this; omega),
      ih (i + 1) (by rw [show i + 1 + n = i + (n + 1) by omega]; exact hlt)
        (fun j h1 h2 => hno j (by omega) (by omega)), show i + 1 + n = i + (n + 1) by omega]

/-- `hashToInt` returns the challenge if there is one. -/
theorem hashToInt_complete {a : HashAlg} {c : Curve} {b : Bytes} {s : Nat}
    (h : IsChallenge (E.hash a) c b s) : ∃ fuel, hashToInt E a c b fuel = some s := by
  obtain ⟨i, rfl, hlt, hno⟩ := h
  refine ⟨i + 1, ?_⟩
  have := hashToIntFrom_complete (E := E) a c b i 0 (by rwa [Nat.zero_add]) (fun j _ h => hno j (by omega))
  rwa [Nat.zero_add] at this

/-! ## Encodings -/

theorem marshal_fits {c : Curve} {p : Nat × Nat} (h1 : p.1 < 256 ^ c.byteSize) (h2 : p.2 < 256 ^ c.byteSize) :
    marshal c p = .ok (enc c p) := by
  unfold marshal; rw [if_pos ⟨h1, h2⟩]; rfl

theorem xy_fits {c : Curve} {a : Int} (hg : GoodCurve c a) (hF : c.P ≤ 256 ^ c.byteSize) [Fact c.P.Prime]
    (P : Pt c a) : (xy P).1 < 256 ^ c.byteSize ∧ (xy P).2 < 256 ^ c.byteSize := by
  by_cases h : P = 0
  · subst h; rw [Affine.xy_zero]
    have : 0 < 256 ^ c.byteSize := by positivity
    exact ⟨this, this⟩
  · obtain ⟨-, h1, h2⟩ := Affine.xy_onCurve P h
    omega

theorem marshal_xy {c : Curve} {a : Int} (hg : GoodCurve c a) (hF : c.P ≤ 256 ^ c.byteSize) [Fact c.P.Prime]
    (P : Pt c a) : marshal c (xy P) = .ok (enc c (xy P)) :=
  marshal_fits (xy_fits hg hF P).1 (xy_fits hg hF P).2

theorem enc_length (c : Curve) (p : Nat × Nat) : (enc c p).length = 2 * c.byteSize + 1 := by
  unfold enc sec1Uncompressed
  rw [List.length_cons, List.length_append, beFix_length, beFix_length]; omega

theorem unmarshal_enc (hE : E.Lawful) {c : Curve} (hc : c ∈ Curves.all E.k1name)
    [Fact c.P.Prime] (V : Pt c (curveA E.k1name c)) (hV : V ≠ 0) :
    unmarshal E c (enc c (xy V)) = some (xy V) := by
  have hF := Props.supported_goodField E.k1name c hc
  obtain ⟨hon, h1, h2⟩ := Affine.xy_onCurve V hV
  have hl := enc_length c (xy V)
  have e : enc c (xy V) = 4 :: (beFix c.byteSize (xy V).1 ++ beFix c.byteSize (xy V).2) := rfl
  unfold unmarshal
  rw [if_neg (by omega), e]
  have hd : (4 :: (beFix c.byteSize (xy V).1 ++ beFix c.byteSize (xy V).2)).drop (1 + c.byteSize) =
      beFix c.byteSize (xy V).2 := by
    rw [Nat.add_comm, List.drop_succ_cons, List.drop_left' (beFix_length _ _)]
  rw [if_neg (by simp)]
  simp only [List.drop_succ_cons, List.drop_zero, hd, List.take_left' (beFix_length _ _)]
  rw [natOfBytes_beFix_of_lt (lt_of_lt_of_le h1 hF.fits), natOfBytes_beFix_of_lt (lt_of_lt_of_le h2 hF.fits),
    if_neg (by omega), (hE.onCurve c hc _ _ h1 h2).2 hon]
  rfl

theorem unmarshal_some (hE : E.Lawful) {c : Curve} (hc : c ∈ Curves.all E.k1name)
    [Fact c.P.Prime] {data : Bytes} {U : Nat × Nat} (h : unmarshal E c data = some U) :
    ∃ V : Pt c (curveA E.k1name c), V ≠ 0 ∧ xy V = U ∧ data = enc c U := by
  have hg := Props.good_of_mem E.k1name hE.k1name c hc
  unfold unmarshal at h
  split_ifs at h with h1 h2
  simp only at h
  split_ifs at h with h3 h4
  have hU := Option.some.inj h
  rw [not_not] at h1 h2
  rw [not_or] at h3
  have hx := not_le.1 h3.1
  have hy := not_le.1 h3.2
  have hon := (hE.onCurve c hc _ _ hx hy).1 (by simpa using h4)
  refine ⟨Affine.ofXY hg.ok hon, Affine.ofXY_ne_zero hg.ok hon, ?_, ?_⟩
  · rw [Affine.xy_ofXY hg.ok hon hx hy]; exact hU
  · rw [← hU]
    obtain ⟨b0, rest, rfl⟩ : ∃ b0 rest, data = b0 :: rest := by
      cases data with
      | nil => simp at h1; omega
      | cons b0 rest => exact ⟨b0, rest, rfl⟩
    simp only [List.getD_cons_zero] at h2
    subst h2
    simp only [List.length_cons] at h1
    unfold enc sec1Uncompressed
    simp only [List.drop_succ_cons, List.drop_zero]
    rw [Nat.add_comm 1, List.drop_succ_cons]
    have e1 : (rest.take c.byteSize).length = c.byteSize := by rw [List.length_take]; omega
    have e2 : (rest.drop c.byteSize).length = c.byteSize := by rw [List.length_drop]; omega
    have f1 := beFix_natOfBytes (rest.take c.byteSize)
    have f2 := beFix_natOfBytes (rest.drop c.byteSize)
    rw [e1] at f1
    rw [e2] at f2
    rw [f1, f2, List.take_append_drop]

/-! ## Supported curves -/

theorem getHash_iff (hE : E.Lawful) (c : Curve) (hc : c ∈ Curves.all E.k1name) (a : HashAlg) :
    getHash E c = some a ↔ VrfHash E.k1name c a := by
  have hk := hE.k1name
  have h1 : "sm2p256v1" ≠ E.k1name := by rcases hk with e | e <;> rw [e] <;> decide
  simp only [Curves.all, List.mem_cons, List.not_mem_nil, or_false] at hc
  constructor
  · intro h
    rcases hc with rfl | rfl | rfl | rfl | rfl | rfl
    · rw [show getHash E Curves.p224 = some .sha224 from rfl] at h; cases h; exact .p224
    · rw [show getHash E Curves.p256 = some .sha256 by simp [getHash, Curves.p256]] at h; cases h; exact .p256
    · rw [show getHash E Curves.p384 = some .sha384 by simp [getHash, Curves.p384]] at h; cases h; exact .p384
    · rw [show getHash E Curves.p521 = none by simp [getHash, Curves.p521]] at h; cases h
    · rw [show getHash E (Curves.secp256k1 E.k1name) = some .sha256 by
        simp [getHash, Curves.secp256k1, h1.symm]] at h
      cases h; exact .k1
    · rw [show getHash E Curves.sm2 = some .sm3 by simp [getHash, Curves.sm2]] at h; cases h; exact .sm2
  · intro h
    cases h with
    | p224 => rfl
    | p256 => simp [getHash, Curves.p256]
    | p384 => simp [getHash, Curves.p384]
    | k1 => simp [getHash, Curves.secp256k1, h1.symm]
    | sm2 => simp [getHash, Curves.sm2]

theorem VrfHash.mem {k1name : String} {c : Curve} {a : HashAlg} (h : VrfHash k1name c a) :
    c ∈ Curves.all k1name := by
  cases h <;> simp [Curves.all]

theorem VrfHash.size {k1name : String} {c : Curve} {a : HashAlg} (h : VrfHash k1name c a) :
    c.byteSize = VRF.size a := by
  cases h with
  | p224 => rfl
  | p256 => rfl
  | p384 => rfl
  | k1 => exact (rfl : (Curves.secp256k1 "").byteSize = 32)
  | sm2 => rfl

/-- The curve is supported, and the digests of the hash function are as long as its field elements. -/
structure FitHash (k1name : String) (c : Curve) (a : HashAlg) : Prop where
  mem : c ∈ Curves.all k1name
  size : c.byteSize = VRF.size a

theorem VrfHash.fit {k1name : String} {c : Curve} {a : HashAlg} (h : VrfHash k1name c a) : FitHash k1name c a :=
  ⟨h.mem, h.size⟩

instance {k1name : String} {c : Curve} {a : HashAlg} : Coe (VrfHash k1name c a) (FitHash k1name c a) :=
  ⟨VrfHash.fit⟩

/-! ## Points -/

theorem hashPoint_pt {Hs : Bytes → Bytes} {c : Curve} {a : Int} (hg : GoodCurve c a) [Fact c.P.Prime]
    {m : Bytes} {x y : Nat} (h : IsHashPoint Hs c a m x y) :
    ∃ Hp : Pt c a, Hp ≠ 0 ∧ xy Hp = (x % c.P, y) ∧ (x % c.P, y % c.P) = xy Hp := by
  obtain ⟨i, -, -, -, hlt, hon, -⟩ := h
  have : xy (Affine.ofXY hg.ok hon) = (x % c.P, y % c.P) := by
    unfold Affine.ofXY
    rw [Affine.xy_some, ZMod.val_natCast, ZMod.val_natCast]
  refine ⟨Affine.ofXY hg.ok hon, Affine.ofXY_ne_zero hg.ok hon, ?_, this.symm⟩
  rw [this, Nat.mod_eq_of_lt hlt]

theorem reduced {c : Curve} {a : Int} [Fact c.P.Prime] {P : Pt c a} (hP : P ≠ 0) :
    ((xy P).1 % c.P, (xy P).2 % c.P) = xy P := by
  obtain ⟨-, h1, h2⟩ := Affine.xy_onCurve P hP
  rw [Nat.mod_eq_of_lt h1, Nat.mod_eq_of_lt h2]

theorem challengeInput_eq {c : Curve} {a : Int} (hg : GoodCurve c a) (hF : c.P ≤ 256 ^ c.byteSize)
    [Fact c.P.Prime] {hx hy : Nat} (h1 : hx < 256 ^ c.byteSize) (h2 : hy < c.P) (Q V A B : Pt c a) :
    challengeInput c (hx, hy) (xy Q) (enc c (xy V)) (xy A) (xy B) =
      .ok (transcript c (hx, hy) (xy Q) (xy V) (xy A) (xy B)) := by
  have hG : marshal c (c.Gx, c.Gy) = .ok (enc c (c.Gx, c.Gy)) :=
    marshal_fits (lt_of_lt_of_le hg.gx_lt hF) (lt_of_lt_of_le hg.gy_lt hF)
  have hH : marshal c (hx, hy) = .ok (enc c (hx, hy)) := marshal_fits h1 (lt_of_lt_of_le h2 hF)
  unfold challengeInput marshalAll
  rw [hG]
  unfold marshalAll
  rw [hH]
  unfold marshalAll
  rw [marshal_xy hg hF, marshal_xy hg hF]
  unfold marshalAll
  simp only [Res.bind, Res.map]
  rw [marshal_xy hg hF]
  simp [Res.bind, Res.map, transcript, marshalAll]

/-- Everything that is known about the hash point once `hashToCurve` has returned it. -/
theorem hashToCurve_some (hE : E.Lawful) {c : Curve} {a : HashAlg} (hv : FitHash E.k1name c a)
    [Fact c.P.Prime] {m : Bytes} (hm : m.length < 2 ^ 60) {draws : Nat → List Nat} {H : Nat × Nat}
    (h : hashToCurve E a c m draws = some (some H)) :
    IsHashPoint (E.hash a) c (curveA E.k1name c) m H.1 H.2 ∧ H.1 < 256 ^ c.byteSize ∧ H.2 < c.P ∧
    ∃ Hp : Pt c (curveA E.k1name c), Hp ≠ 0 ∧ xy Hp = (H.1 % c.P, H.2) ∧
      ∀ k, (E.ops c).mult H k = xy (k • Hp) := by
  have hc := hv.mem
  have hg := Props.good_of_mem E.k1name hE.k1name c hc
  have hp := (hashToCurve_spec hE hc hv.size m hm draws).1 H h
  obtain ⟨Hp, e1, e2, e3⟩ := hashPoint_pt hg hp
  refine ⟨hp, ?_, ?_, Hp, e1, e2, fun k => hE.mult c hc Hp H.1 H.2 k e1 e3⟩
  · obtain ⟨i, -, hx, -⟩ := hp
    rw [hx]; exact cand_lt hE hv.size m hm i
  · obtain ⟨i, -, -, -, hl, -⟩ := hp
    exact hl

theorem input_short {k1name : String} {c : Curve} {a : HashAlg} (hv : FitHash k1name c a) (p : Nat × Nat)
    (msg : Bytes) (hm : msg.length < 2 ^ 59) : (enc c p ++ msg).length < 2 ^ 60 := by
  rw [List.length_append, enc_length, hv.size]
  have : size a ≤ 64 := by cases a <;> decide
  omega

/-! ## Checking a proof -/

/-- The test of the verification equation on given points. -/
theorem checkWith_eq (hE : E.Lawful) {c : Curve} {a : HashAlg} (hv : FitHash E.k1name c a)
    [Fact c.P.Prime] {G Q V Hp : Pt c (curveA E.k1name c)} (hG : xy G = (c.Gx, c.Gy)) (hQ : Q ≠ 0) (hV : V ≠ 0)
    {H : Nat × Nat} (h1 : H.1 < 256 ^ c.byteSize) (h2 : H.2 < c.P)
    (hm : ∀ k, (E.ops c).mult H k = xy (k • Hp)) (sb tb : Bytes) (fuel : Nat) :
    checkWith E a ⟨c, (xy Q).1, (xy Q).2⟩ sb tb (enc c (xy V)) (xy V) (some H) fuel =
      checkTail E a c sb (enc c (xy V)) (transcript c H (xy Q) (xy V)
        (xy (natOfBytes tb • G + natOfBytes sb • Q)) (xy (natOfBytes tb • Hp + natOfBytes sb • V))) fuel := by
  have hc := hv.mem
  have hg := Props.good_of_mem E.k1name hE.k1name c hc
  have hF := (Props.supported_goodField E.k1name c hc).fits
  have hA : (E.ops c).add ((E.ops c).baseMult (natOfBytes tb)) ((E.ops c).mult (xy Q) (natOfBytes sb)) =
      xy (natOfBytes tb • G + natOfBytes sb • Q) := by
    rw [hE.base c hc G hG, hE.mult c hc Q (xy Q).1 (xy Q).2 _ hQ (reduced hQ), hE.add c hc]
  have hB : (E.ops c).add ((E.ops c).mult H (natOfBytes tb)) ((E.ops c).mult (xy V) (natOfBytes sb)) =
      xy (natOfBytes tb • Hp + natOfBytes sb • V) := by
    rw [hm, hE.mult c hc V (xy V).1 (xy V).2 _ hV (reduced hV), hE.add c hc]
  unfold checkWith
  simp only [Prod.mk.eta]
  rw [hA, hB, show H = (H.1, H.2) from rfl, challengeInput_eq hg hF h1 h2]

/-- Outcome of the last comparison. -/
theorem checkTail_spec (a : HashAlg) {c : Curve} (hN : c.N ≤ 256 ^ c.byteSize) (sb vrf b : Bytes)
    (hl : sb.length = c.byteSize) :
    (∀ fuel i, checkTail E a c sb vrf b fuel = some (.ok i) →
      i = E.hash .sha256 vrf ∧ IsChallenge (E.hash a) c b (natOfBytes sb)) ∧
    (∀ fuel m, checkTail E a c sb vrf b fuel = some (.err m) → ¬ IsChallenge (E.hash a) c b (natOfBytes sb)) ∧
    (∀ fuel m, checkTail E a c sb vrf b fuel ≠ some (.panic m)) ∧
    (∀ s, IsChallenge (E.hash a) c b s → ∃ fuel, checkTail E a c sb vrf b fuel ≠ none) := by
  have key : ∀ s, IsChallenge (E.hash a) c b s → (sb = beFix c.byteSize s ↔ natOfBytes sb = s) := by
    rintro s ⟨i, rfl, hlt, -⟩
    constructor
    · intro e; rw [e, natOfBytes_beFix_of_lt (by omega)]
    · intro e; rw [← e, ← hl, beFix_natOfBytes]
  refine ⟨fun fuel i h => ?_, fun fuel m h => ?_, fun fuel m h => ?_, fun s hs => ?_⟩
  · obtain ⟨s, hs, h⟩ := Option.map_eq_some_iff.1 h
    have hs := hashToInt_spec hs
    split_ifs at h with e
    cases h
    rw [(key s hs).1 e]
    exact ⟨rfl, hs⟩
  · obtain ⟨s, hs, h⟩ := Option.map_eq_some_iff.1 h
    have hs := hashToInt_spec hs
    split_ifs at h with e
    intro hc
    exact e ((key s hs).2 (challenge_unique hc hs))
  · obtain ⟨s, hs, h⟩ := Option.map_eq_some_iff.1 h
    split_ifs at h
  · obtain ⟨fuel, hf⟩ := hashToInt_complete hs
    refine ⟨fuel, ?_⟩
    unfold checkTail
    rw [hf]; simp

theorem proofToHash_eq (hE : E.Lawful) {c : Curve} {a : HashAlg} (hv : FitHash E.k1name c a)
    [Fact c.P.Prime] (Q : Pt c (curveA E.k1name c)) (msg vrf nizk : Bytes)
    (hl1 : vrf.length = 2 * c.byteSize + 1) (hl2 : nizk.length = 2 * c.byteSize) (draws : Nat → List Nat)
    (fuel : Nat) : proofToHash E a ⟨c, (xy Q).1, (xy Q).2⟩ msg (nizk ++ vrf) draws fuel =
      match unmarshal E c vrf with
      | none => some (.err "invalid VRF proof")
      | some U =>
        match hashToCurve E a c (enc c (xy Q) ++ msg) draws with
        | none => none
        | some H => checkWith E a ⟨c, (xy Q).1, (xy Q).2⟩ (nizk.take c.byteSize) (nizk.drop c.byteSize) vrf U H
            fuel := by
  have hc := hv.mem
  have hg := Props.good_of_mem E.k1name hE.k1name c hc
  have hF := Props.supported_goodField E.k1name c hc
  set n := c.byteSize with hn
  have t1 : (nizk ++ vrf).take n = nizk.take n := List.take_append_of_le_length (by omega)
  have t2 : ((nizk ++ vrf).drop n).take n = nizk.drop n := by
    rw [List.drop_append_of_le_length (by omega), List.take_append_of_le_length (by rw [List.length_drop]; omega),
      List.take_of_length_le (by rw [List.length_drop]; omega)]
  have t3 : ((nizk ++ vrf).drop (2 * n)).take (2 * n + 1) = vrf := by
    rw [List.drop_left' hl2, List.take_of_length_le hl1.le]
  unfold proofToHash
  simp only [← hn]
  rw [if_neg (by rw [hn, hv.size]; simp), if_neg (by rw [List.length_append]; omega), t1, t2, t3, Prod.mk.eta,
    marshal_xy hg hF.fits]
  cases unmarshal E c vrf <;> rfl

/-- What `ProofToHash` does with a proof of the right length. -/
theorem proofToHash_spec (hE : E.Lawful) {c : Curve} {a : HashAlg} (hv : FitHash E.k1name c a)
    [Fact c.P.Prime] {G Q : Pt c (curveA E.k1name c)} (hG : xy G = (c.Gx, c.Gy)) (hQ : Q ≠ 0)
    (msg vrf nizk : Bytes) (hm : msg.length < 2 ^ 59) (hl1 : vrf.length = 2 * c.byteSize + 1)
    (hl2 : nizk.length = 2 * c.byteSize) (draws : Nat → List Nat) :
    (∀ fuel i, proofToHash E a ⟨c, (xy Q).1, (xy Q).2⟩ msg (nizk ++ vrf) draws fuel = some (.ok i) →
      i = E.hash .sha256 vrf ∧ Accepts (E.hash a) G Q msg vrf nizk) ∧
    (∀ fuel m, proofToHash E a ⟨c, (xy Q).1, (xy Q).2⟩ msg (nizk ++ vrf) draws fuel = some (.err m) →
      ¬ Accepts (E.hash a) G Q msg vrf nizk) ∧
    (∀ fuel m, proofToHash E a ⟨c, (xy Q).1, (xy Q).2⟩ msg (nizk ++ vrf) draws fuel = some (.panic m) →
      (∃ V : Pt c (curveA E.k1name c), V ≠ 0 ∧ vrf = enc c (xy V)) ∧
      ¬ ∃ x y, IsHashPoint (E.hash a) c (curveA E.k1name c) (enc c (xy Q) ++ msg) x y) ∧
    ((∃ V : Pt c (curveA E.k1name c), V ≠ 0 ∧ vrf = enc c (xy V)) →
      (¬ ∃ x y, IsHashPoint (E.hash a) c (curveA E.k1name c) (enc c (xy Q) ++ msg) x y) →
      ∀ fuel r, proofToHash E a ⟨c, (xy Q).1, (xy Q).2⟩ msg (nizk ++ vrf) draws fuel = some r → ∃ m, r = .panic m) ∧
    (Accepts (E.hash a) G Q msg vrf nizk → c ≠ Curves.p224 →
      ∃ fuel i, proofToHash E a ⟨c, (xy Q).1, (xy Q).2⟩ msg (nizk ++ vrf) draws fuel = some (.ok i)) := by
  have hc := hv.mem
  have hg := Props.good_of_mem E.k1name hE.k1name c hc
  have hF := Props.supported_goodField E.k1name c hc
  have hN := (Signature.byteSize_bound hc).1
  set n := c.byteSize with hn
  have e0 := proofToHash_eq hE hv Q msg vrf nizk hl1 hl2 draws
  simp only [← hn] at e0
  have hm' := input_short hv (xy Q) msg hm
  have hlt : (nizk.take n).length = c.byteSize := by rw [List.length_take]; omega
  by_cases hU : unmarshal E c vrf = none
  · have hno : ¬ ∃ V : Pt c (curveA E.k1name c), V ≠ 0 ∧ vrf = enc c (xy V) := by
      rintro ⟨V, hV, rfl⟩
      rw [unmarshal_enc hE hc V hV] at hU; cases hU
    simp only [e0, hU]
    refine ⟨fun _ _ h => (by cases h), fun _ _ _ h => ?_, fun _ _ h => (by cases h), fun h => absurd h hno, fun h => ?_⟩
    · obtain ⟨-, V, -, -, -, hV, hvv, -⟩ := h; exact absurd ⟨V, hV, hvv⟩ hno
    · obtain ⟨-, V, -, -, -, hV, hvv, -⟩ := h; exact absurd ⟨V, hV, hvv⟩ hno
  · obtain ⟨U, hU⟩ := Option.ne_none_iff_exists'.1 hU
    obtain ⟨V, hV, rfl, hvv⟩ := unmarshal_some hE hc hU
    simp only [e0, hU]
    obtain ⟨s1, s2, s3⟩ := hashToCurve_spec hE hc hv.size (enc c (xy Q) ++ msg) hm' draws
    cases hh : hashToCurve E a c (enc c (xy Q) ++ msg) draws with
    | none =>
      refine ⟨fun _ _ h => (by cases h), fun _ _ h => (by cases h), fun _ _ h => (by cases h), fun _ _ _ _ h => (by cases h),
        fun _ h => absurd hh (s3 h)⟩
    | some H =>
      cases H with
      | none =>
        have := s2 hh
        refine ⟨fun _ _ h => (by cases h), fun _ _ h => (by cases h), fun _ _ _ => ⟨⟨V, hV, hvv⟩, this⟩, fun _ _ _ _ h => ⟨_, (Option.some.inj h).symm⟩,
          fun h _ => ?_⟩
        obtain ⟨-, _, _, hx, hy, -, -, hp, -⟩ := h
        exact absurd ⟨hx, hy, hp⟩ this
      | some H =>
        obtain ⟨p1, p2, p3, Hp, p4, p5, p6⟩ := hashToCurve_some hE hv hm' hh
        simp only [hvv]
        simp only [checkWith_eq hE hv hG hQ hV p2 p3 p6]
        obtain ⟨c1, c2, c3, c4⟩ := checkTail_spec (E := E) a hN (nizk.take n) (enc c (xy V))
          (transcript c H (xy Q) (xy V)
            (xy (natOfBytes (nizk.drop n) • G + natOfBytes (nizk.take n) • Q))
            (xy (natOfBytes (nizk.drop n) • Hp + natOfBytes (nizk.take n) • V))) hlt
        have hacc : Accepts (E.hash a) G Q msg (enc c (xy V)) nizk ↔ IsChallenge (E.hash a) c
            (transcript c H (xy Q) (xy V)
            (xy (natOfBytes (nizk.drop n) • G + natOfBytes (nizk.take n) • Q))
            (xy (natOfBytes (nizk.drop n) • Hp + natOfBytes (nizk.take n) • V))) (natOfBytes (nizk.take n)) := by
          constructor
          · rintro ⟨-, V', Hp', hx, hy, h1, h2, h3, h4, h5⟩
            obtain ⟨e1, e2⟩ := hashPoint_unique hg hF.odd h3 p1
            have e3 : V' = V := by
              apply Affine.xy_inj hg.ok
              have u1 := unmarshal_enc hE hc V hV
              rw [h2, unmarshal_enc hE hc V' h1] at u1
              exact Option.some.inj u1
            have e4 : Hp' = Hp := by
              apply Affine.xy_inj hg.ok
              rw [h4, p5, e1, e2]
            rw [e3, e4, e1, e2, Prod.mk.eta] at h5
            exact h5
          · intro h
            exact ⟨hl2, V, Hp, H.1, H.2, hV, rfl, p1, p5, h⟩
        rw [hacc]
        refine ⟨c1, c2, fun fuel m h => absurd h (c3 fuel m), fun _ h => absurd ⟨H.1, H.2, p1⟩ h, fun h _ => ?_⟩
        obtain ⟨fuel, hf⟩ := c4 _ h
        refine ⟨fuel, ?_⟩
        obtain ⟨r, hr⟩ := Option.ne_none_iff_exists'.1 hf
        cases r with
        | ok i => exact ⟨i, hr⟩
        | err m => exact absurd h (c2 fuel m hr)
        | panic m => exact absurd hr (c3 fuel m)

/-! ## Making a proof -/

/-- What `Evaluate` does with a proper key. -/
theorem evaluate_spec (hE : E.Lawful) {c : Curve} {a : HashAlg} (hv : FitHash E.k1name c a)
    [Fact c.P.Prime] {G : Pt c (curveA E.k1name c)} (hG : xy G = (c.Gx, c.Gy)) (D : Nat) (hD : D % c.N ≠ 0)
    (msg : Bytes) (hm : msg.length < 2 ^ 59) (rb : Bytes) (draws : Nat → List Nat) :
    (∀ fuel proof, evaluate E a ⟨D, c, (xy (D • G)).1, (xy (D • G)).2⟩ msg (.ok rb) draws fuel = some (.ok proof) →
      ∃ (H : Nat × Nat) (Hp : Pt c (curveA E.k1name c)) (s : Nat),
        hashToCurve E a c (enc c (xy (D • G)) ++ msg) draws = some (some H) ∧
        IsHashPoint (E.hash a) c (curveA E.k1name c) (enc c (xy (D • G)) ++ msg) H.1 H.2 ∧
        Hp ≠ 0 ∧ xy Hp = (H.1 % c.P, H.2) ∧
        hashToInt E a c (transcript c H (xy (D • G)) (xy (D • Hp)) (xy (natOfBytes rb • G))
          (xy (natOfBytes rb • Hp))) fuel = some s ∧
        proof = beFix c.byteSize s ++ beFix c.byteSize ((((natOfBytes rb : Nat) : Int) - (s : Int) * D) % c.N).toNat ++
          enc c (xy (D • Hp))) ∧
    (∀ fuel m, evaluate E a ⟨D, c, (xy (D • G)).1, (xy (D • G)).2⟩ msg (.ok rb) draws fuel ≠ some (.err m)) ∧
    (∀ fuel m, evaluate E a ⟨D, c, (xy (D • G)).1, (xy (D • G)).2⟩ msg (.ok rb) draws fuel = some (.panic m) →
      ¬ ∃ x y, IsHashPoint (E.hash a) c (curveA E.k1name c) (enc c (xy (D • G)) ++ msg) x y) ∧
    ((¬ ∃ x y, IsHashPoint (E.hash a) c (curveA E.k1name c) (enc c (xy (D • G)) ++ msg) x y) →
      ∀ fuel r, evaluate E a ⟨D, c, (xy (D • G)).1, (xy (D • G)).2⟩ msg (.ok rb) draws fuel = some r →
        ∃ m, r = .panic m) := by
  have hc := hv.mem
  have hg := Props.good_of_mem E.k1name hE.k1name c hc
  have hF := Props.supported_goodField E.k1name c hc
  set Q := D • G with hQdef
  have hm' := input_short hv (xy Q) msg hm
  have e0 : ∀ fuel, evaluate E a ⟨D, c, (xy Q).1, (xy Q).2⟩ msg (.ok rb) draws fuel =
      match hashToCurve E a c (enc c (xy Q) ++ msg) draws with
      | none => none
      | some H => evalWith E a ⟨D, c, (xy Q).1, (xy Q).2⟩ (natOfBytes rb) H fuel := by
    intro fuel
    unfold evaluate
    simp only
    rw [if_neg (by rw [hv.size]; simp), Prod.mk.eta, marshal_xy hg hF.fits]
    rfl
  simp only [e0]
  cases hh : hashToCurve E a c (enc c (xy Q) ++ msg) draws with
  | none =>
    exact ⟨fun _ _ h => (by cases h), fun _ _ h => (by cases h), fun _ _ h => (by cases h), fun _ _ _ h => (by cases h)⟩
  | some H =>
    cases H with
    | none =>
      have := (hashToCurve_spec hE hc hv.size (enc c (xy Q) ++ msg) hm' draws).2.1 hh
      exact ⟨fun _ _ h => (by cases h), fun _ _ h => (by cases h), fun _ _ _ => this,
        fun _ _ _ h => ⟨_, (Option.some.inj h).symm⟩⟩
    | some H =>
      obtain ⟨p1, p2, p3, Hp, p4, p5, p6⟩ := hashToCurve_some hE hv hm' hh
      have e1 : ∀ fuel, evalWith E a ⟨D, c, (xy Q).1, (xy Q).2⟩ (natOfBytes rb) (some H) fuel =
          evalTail E a c D (natOfBytes rb) (enc c (xy (D • Hp))) (transcript c H (xy Q) (xy (D • Hp))
            (xy (natOfBytes rb • G)) (xy (natOfBytes rb • Hp))) fuel := by
        intro fuel
        unfold evalWith
        simp only [Prod.mk.eta]
        rw [p6, marshal_xy hg hF.fits]
        simp only
        rw [p6, hE.base c hc G hG, show H = (H.1, H.2) from rfl, challengeInput_eq hg hF.fits p2 p3]
      simp only [e1]
      refine ⟨fun fuel proof h => ?_, fun fuel m h => ?_, fun fuel m h => ?_, fun h => absurd ⟨H.1, H.2, p1⟩ h⟩
      · obtain ⟨s, hs, h⟩ := Option.map_eq_some_iff.1 h
        exact ⟨H, Hp, s, rfl, p1, p4, p5, hs, (Res.ok.inj h).symm⟩
      · obtain ⟨s, hs, h⟩ := Option.map_eq_some_iff.1 h; cases h
      · obtain ⟨s, hs, h⟩ := Option.map_eq_some_iff.1 h; cases h

/-- The commitments come out again: `t + s D` is the nonce. -/
theorem commit_eq {c : Curve} {a : Int} (hg : GoodCurve c a) [Fact c.P.Prime] (P : Pt c a) (ri s D : Nat) :
    ((((ri : Int) - (s : Int) * D) % c.N).toNat) • P + s • (D • P) = ri • P := by
  have hN : (0 : Int) < c.N := by exact_mod_cast hg.order_prime.pos
  rw [← mul_smul, ← add_smul, ← Affine.mod_smul hg.card P ri, ← Affine.mod_smul hg.card P (_ + _)]
  congr 1
  zify
  rw [Int.toNat_of_nonneg (Int.emod_nonneg _ hN.ne')]
  rw [Int.emod_add_emod]
  congr 1
  ring

theorem accepts_made {c : Curve} {a : Int} (hg : GoodCurve c a) (hN : c.N ≤ 256 ^ c.byteSize)
    [Fact c.P.Prime] {Hs : Bytes → Bytes} {G : Pt c a} {D : Nat} (hD : D % c.N ≠ 0)
    {msg : Bytes} {ri : Nat} {H : Nat × Nat} {Hp : Pt c a} {s : Nat}
    (h1 : IsHashPoint Hs c a (enc c (xy (D • G)) ++ msg) H.1 H.2)
    (h2 : Hp ≠ 0) (h3 : xy Hp = (H.1 % c.P, H.2))
    (h4 : IsChallenge Hs c (transcript c H (xy (D • G)) (xy (D • Hp)) (xy (ri • G)) (xy (ri • Hp))) s) :
    Accepts Hs G (D • G) msg (enc c (xy (D • Hp)))
      (beFix c.byteSize s ++ beFix c.byteSize ((((ri : Nat) : Int) - (s : Int) * D) % c.N).toNat) := by
  have hN0 : (0 : Int) < c.N := by exact_mod_cast hg.order_prime.pos
  have hs : s < 256 ^ c.byteSize := by
    obtain ⟨i, rfl, hlt, -⟩ := h4; omega
  have ht : ((((ri : Nat) : Int) - (s : Int) * D) % c.N).toNat < 256 ^ c.byteSize := by
    have := Int.emod_lt_of_pos (((ri : Nat) : Int) - (s : Int) * D) hN0
    omega
  refine ⟨by rw [List.length_append, beFix_length, beFix_length]; omega, D • Hp, Hp, H.1, H.2, ?_, rfl, h1, h3, ?_⟩
  · rw [Ne, hg.smul_eq_zero_iff h2]; exact hD
  · rw [List.take_left' (beFix_length _ _), List.drop_left' (beFix_length _ _), natOfBytes_beFix_of_lt hs,
      natOfBytes_beFix_of_lt ht, commit_eq hg, commit_eq hg]
    exact h4

/-- A freshly made proof is checked in the time it took to make it. -/
theorem proofToHash_made (hE : E.Lawful) {c : Curve} {a : HashAlg} (hv : FitHash E.k1name c a)
    [Fact c.P.Prime] {G : Pt c (curveA E.k1name c)} (hG : xy G = (c.Gx, c.Gy)) {D : Nat} (hD : D % c.N ≠ 0)
    {msg : Bytes} (hm : msg.length < 2 ^ 59) {ri : Nat} {H : Nat × Nat} {Hp : Pt c (curveA E.k1name c)} {s : Nat}
    {draws : Nat → List Nat} {fuel : Nat}
    (h0 : hashToCurve E a c (enc c (xy (D • G)) ++ msg) draws = some (some H))
    (h2 : Hp ≠ 0) (h3 : xy Hp = (H.1 % c.P, H.2))
    (h4 : hashToInt E a c (transcript c H (xy (D • G)) (xy (D • Hp)) (xy (ri • G)) (xy (ri • Hp))) fuel = some s) :
    proofToHash E a ⟨c, (xy (D • G)).1, (xy (D • G)).2⟩ msg
      (beFix c.byteSize s ++ beFix c.byteSize ((((ri : Nat) : Int) - (s : Int) * D) % c.N).toNat ++
        enc c (xy (D • Hp))) draws fuel = some (.ok (E.hash .sha256 (enc c (xy (D • Hp))))) := by
  have hc := hv.mem
  have hg := Props.good_of_mem E.k1name hE.k1name c hc
  have hN := (Signature.byteSize_bound hc).1
  have hN0 : (0 : Int) < c.N := by exact_mod_cast hg.order_prime.pos
  have hs : s < 256 ^ c.byteSize := by
    obtain ⟨i, rfl, hlt, -⟩ := hashToInt_spec h4; omega
  have ht : ((((ri : Nat) : Int) - (s : Int) * D) % c.N).toNat < 256 ^ c.byteSize := by
    have := Int.emod_lt_of_pos (((ri : Nat) : Int) - (s : Int) * D) hN0
    omega
  have hV : D • Hp ≠ 0 := by rw [Ne, hg.smul_eq_zero_iff h2]; exact hD
  have hQ : D • G ≠ 0 := by rw [Ne, hg.smul_eq_zero_iff (hg.G_ne_zero hG)]; exact hD
  rw [proofToHash_eq hE hv (D • G) msg _ _ (enc_length _ _)
    (by rw [List.length_append, beFix_length, beFix_length]; omega), unmarshal_enc hE hc _ hV, h0]
  obtain ⟨p1, p2, p3, Hp', p4, p5, p6⟩ := hashToCurve_some hE hv (input_short hv (xy (D • G)) msg hm) h0
  have e : Hp' = Hp := Affine.xy_inj hg.ok (p5.trans h3.symm)
  rw [e] at p6
  simp only
  rw [checkWith_eq hE hv hG hQ hV p2 p3 p6, List.take_left' (beFix_length _ _), List.drop_left' (beFix_length _ _),
    natOfBytes_beFix_of_lt hs, natOfBytes_beFix_of_lt ht, commit_eq hg, commit_eq hg]
  unfold checkTail
  rw [h4]
  simp

end Verif.VRF
