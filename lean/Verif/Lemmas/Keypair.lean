import Verif.Spec.Keys
import Verif.Lemmas.EC
import Mathlib.Data.List.Lex
/-!
# Lemmas on the keypair model
-/
namespace Verif.Keypair
open Verif.EC Verif.Spec

/-- `getNamedCurveLabel` as a function of the only external value it depends on. -/
def labelOf (k1name name : String) : Res Byte := getNamedCurveLabel ⟨k1name, "", fun _ _ => (0, 0), id⟩ name

theorem getNamedCurveLabel_eq (E : Ext) (name : String) :
    getNamedCurveLabel E name = labelOf E.k1name name := rfl

/-- The name of the secp256k1 object: empty in old versions of btcec. -/
def GoodName (k1name : String) : Prop := k1name = "" ∨ k1name = "secp256k1"

theorem mem_all_iff {k1name : String} {c : Curve} :
    c ∈ Curves.all k1name ↔ ∃ l, CurveLabel k1name c l := by
  constructor
  · intro h
    simp only [Curves.all, List.mem_cons, List.not_mem_nil, or_false] at h
    rcases h with rfl | rfl | rfl | rfl | rfl | rfl
    exacts [⟨_, .p224⟩, ⟨_, .p256⟩, ⟨_, .p384⟩, ⟨_, .p521⟩, ⟨_, .k1⟩, ⟨_, .sm2⟩]
  · rintro ⟨l, h⟩
    cases h <;> simp [Curves.all]

theorem getCurve_label (E : Ext) {c : Curve} {l : Byte} (h : CurveLabel E.k1name c l) :
    getCurve E l = .ok c := by
  cases h <;> rfl

theorem label_of_getCurve (E : Ext) {c : Curve} {l : Byte} (h : getCurve E l = .ok c) :
    CurveLabel E.k1name c l := by
  unfold getCurve at h
  repeat' split at h
  all_goals first
    | (subst_vars; simp only [Res.ok.injEq] at h; subst h; first | exact .p224 | exact .p256 | exact .p384 | exact .p521 | exact .sm2 | exact .k1)
    | cases h

theorem getCurve_not_panic (E : Ext) (l : Byte) (m : String) : getCurve E l ≠ .panic m := by
  unfold getCurve
  repeat' split
  all_goals simp

theorem getCurveLabel_label (E : Ext) (hE : GoodName E.k1name) {c : Curve} {l : Byte}
    (h : CurveLabel E.k1name c l) : getCurveLabel E c = .ok l := by
  unfold getCurveLabel
  rw [getNamedCurveLabel_eq]
  rcases hE with e | e <;> rw [e] at h ⊢ <;> cases h <;> decide +kernel

theorem CurveLabel.unique {k1name : String} {c : Curve} {l l' : Byte} (h : CurveLabel k1name c l)
    (h' : CurveLabel k1name c l') : l = l' := by
  generalize hc : c = c' at h'
  have hP : c.P = c'.P := by rw [hc]
  cases h <;> cases h' <;> first
    | rfl
    | exact absurd hP (by decide +kernel)
    | exact absurd (show (Curves.secp256k1 "").P = _ from hP) (by decide +kernel)
    | exact absurd (show _ = (Curves.secp256k1 "").P from hP) (by decide +kernel)

theorem CurveLabel.curve_unique {k1name : String} {c c' : Curve} {l : Byte} (h : CurveLabel k1name c l)
    (h' : CurveLabel k1name c' l) : c = c' := by
  cases h <;> cases h' <;> rfl

/-- Names identify the supported curves. -/
theorem name_unique {k1name : String} (hk : GoodName k1name) {c c' : Curve} {l l' : Byte}
    (h : CurveLabel k1name c l) (h' : CurveLabel k1name c' l') (hn : c.name = c'.name) : c = c' := by
  have e1 := getCurveLabel_label ⟨k1name, "", fun _ _ => (0, 0), id⟩ hk h
  have e2 := getCurveLabel_label ⟨k1name, "", fun _ _ => (0, 0), id⟩ hk h'
  unfold getCurveLabel at e1 e2
  rw [hn, e2] at e1
  simp only [Res.ok.injEq] at e1
  subst e1
  exact CurveLabel.curve_unique h h'

theorem name_eq_p256 {k1name : String} (hk : GoodName k1name) {c : Curve} {l : Byte}
    (h : CurveLabel k1name c l) : c.name = Curves.p256.name ↔ c = Curves.p256 :=
  ⟨fun hn => name_unique hk h .p256 hn, fun hc => by rw [hc]⟩

theorem upperChar_ascii (c : Char) (h : c.toNat < 128) : upperChar c = c.toUpper := by
  have key : ∀ n < 128, upperChar (Char.ofNat n) = (Char.ofNat n).toUpper := by decide +kernel
  have := key c.toNat h
  rwa [Char.ofNat_toNat] at this

/-- On ASCII strings, Go's `ToUpper` changes the case of the letters only. -/
theorem toUpper_ascii (s : String) (h : ∀ ch ∈ s.toList, ch.toNat < 128) :
    toUpper s = s.toList.map Char.toUpper :=
  List.map_congr_left fun c hc => upperChar_ascii c (h c hc)

theorem getNamedCurveLabel_congr (E : Ext) {s t : String} (h : toUpper s = toUpper t) :
    getNamedCurveLabel E s = getNamedCurveLabel E t := by
  unfold getNamedCurveLabel
  rw [h]

/-- Decoding never panics. -/
theorem decode_not_panic (k1name : String) (data : Bytes) (c : Option Curve) (draws : List Nat) (m : String) :
    decodePublicKey k1name data c draws ≠ some (.panic m) := by
  unfold decodePublicKey
  cases c with
  | none => simp
  | some c =>
    simp only
    split
    · simp
    · split
      · split <;> simp
      · split
        · unfold deCompress
          simp only [ne_eq, Option.map_eq_some_iff, not_exists, not_and]
          intro a _
          cases a <;> simp
        · simp

/-! ## Ethereum keys -/

theorem isOnK1_iff (E : Ext) (x y : Nat) :
    isOnK1 (ethCurve E) x y = true ↔ OnCurve (ethCurve E) 0 x y := by
  unfold isOnK1 OnCurve
  simp only [decide_eq_true_eq, zero_mul, add_zero]
  rw [← Int.emod_eq_emod_iff_emod_sub_eq_zero]
  constructor
  · intro h; exact_mod_cast h
  · intro h; exact_mod_cast h

theorem k1P_fits (s : String) : (Curves.secp256k1 s).P ≤ 256 ^ 32 :=
  show (Curves.secp256k1 "").P ≤ 256 ^ 32 by decide +kernel

theorem unmarshal_marshal (E : Ext) (pub : ECPub) (hc : pub.curve = ethCurve E) (hx : pub.x < pub.curve.P)
    (hy : pub.y < pub.curve.P) (hon : OnCurve pub.curve 0 pub.x pub.y) :
    unmarshalPubkey E (sec1Uncompressed 32 pub.x pub.y) = .ok pub := by
  obtain ⟨c, x, y⟩ := pub
  simp only at hc hx hy hon
  subst hc
  have hP : (ethCurve E).P ≤ 256 ^ 32 := k1P_fits E.ethname
  have hx' : natOfBytes (beFix 32 x) = x := natOfBytes_beFix_of_lt (lt_of_lt_of_le hx hP)
  have hy' : natOfBytes (beFix 32 y) = y := natOfBytes_beFix_of_lt (lt_of_lt_of_le hy hP)
  have h1 : ((sec1Uncompressed 32 x y).drop 1).take 32 = beFix 32 x := by
    simp [sec1Uncompressed, List.take_append, beFix_length]
  have h2 : ((sec1Uncompressed 32 x y).drop 33).take 32 = beFix 32 y := by
    simp [sec1Uncompressed, List.drop_append, beFix_length]
  unfold unmarshalPubkey
  simp only [h1, h2, hx', hy']
  rw [if_neg (by simp [sec1Uncompressed, beFix_length]), if_neg (by simp [sec1Uncompressed]),
    if_neg (by omega), if_pos ((isOnK1_iff E x y).2 hon)]

theorem p256_byteSize : Curves.p256.byteSize = 32 := by decide

theorem byteSize_ge {k1name : String} {c : Curve} {l : Byte} (h : CurveLabel k1name c l) : 28 ≤ c.byteSize := by
  cases h with
  | k1 => exact (show 28 ≤ (Curves.secp256k1 "").byteSize by decide)
  | _ => decide

theorem deser_eth (E : Ext) (d : Bytes) (draws : List Nat) (hd : 3 ≤ d.length) :
    deserializePublicKey E (PK_ETHECDSA :: d) draws = some ((unmarshalPubkey E d).map .eth) := by
  unfold deserializePublicKey
  rw [if_neg (by simp; omega)]
  simp only [List.getD_cons_zero, List.drop_succ_cons, List.drop_zero]
  rw [if_neg (by decide), if_neg (by decide), if_neg (by decide), if_pos trivial]

theorem ser_p256 (E : Ext) (pub : ECPub) (h : pub.curve.name = Curves.p256.name) :
    serializePublicKey E (.ec .ecdsa pub) = encodePublicKey (some pub) true :=
  if_pos ⟨rfl, h⟩

/-- The type byte written for an EC key. -/
def algPrefix : Alg → Bytes
  | .ecdsa => [PK_ECDSA]
  | .sm2 => [PK_SM2]
  | .other _ => []

theorem ser_ec (E : Ext) (alg : Alg) (pub : ECPub) {l : Byte}
    (h : ¬ (alg = .ecdsa ∧ pub.curve.name = Curves.p256.name)) (hl : getCurveLabel E pub.curve = .ok l) :
    serializePublicKey E (.ec alg pub) =
      (encodePublicKey (some pub) true).map fun e => algPrefix alg ++ [l] ++ e := by
  refine (if_neg h).trans ?_
  show (match getCurveLabel E pub.curve with
    | .ok label => (encodePublicKey (some pub) true).map fun e => algPrefix alg ++ [label] ++ e
    | .err m => .panic m
    | .panic m => .panic m) = _
  rw [hl]

theorem serPriv_ec (E : Ext) (alg : Alg) (priv : ECPriv) {l : Byte}
    (hl : getCurveLabel E priv.pub.curve = .ok l) :
    serializePrivateKey E (.ec alg priv) =
      (encodePublicKey (some priv.pub) true).map fun e => algPrefix alg ++ [l] ++
        zeros (priv.pub.curve.byteSize - (bytesOfNat priv.D).length) ++ bytesOfNat priv.D ++ e := by
  show (match getCurveLabel E priv.pub.curve with
    | .ok label => (encodePublicKey (some priv.pub) true).map fun e => algPrefix alg ++ [label] ++
        zeros (priv.pub.curve.byteSize - (bytesOfNat priv.D).length) ++ bytesOfNat priv.D ++ e
    | .err m => .panic m
    | .panic m => .panic m) = _
  rw [hl]

theorem deserPriv_ec (E : Ext) (t l : Byte) (body : Bytes) (draws : List Nat) {c : Curve}
    (ht : t = PK_ECDSA ∨ t = PK_SM2) (hl : getCurve E l = .ok c)
    (hlen : c.byteSize * 2 + 3 ≤ body.length + 2) :
    deserializePrivateKey E (t :: l :: body) draws =
      (decodePublicKey E.k1name (body.drop c.byteSize) (some c) draws).map fun
        | .err m => .err ("deserializing private key failed: " ++ m)
        | .panic m => .panic m
        | .ok p =>
          if (constructPrivateKey E (body.take c.byteSize) c).pub.x ≠ p.x ∨
              (constructPrivateKey E (body.take c.byteSize) c).pub.y ≠ p.y then
            .err "deserializing private key failed: unmatched private and public key"
          else .ok (some (.ec (if t = PK_ECDSA then .ecdsa else .sm2)
            (constructPrivateKey E (body.take c.byteSize) c))) := by
  unfold deserializePrivateKey
  simp only
  rw [if_pos ht, hl]
  simp only
  rw [if_neg (by simp only [List.length_cons]; omega)]
  rfl

theorem deCompress_curve (k1name : String) (tag : Nat) (xb : Bytes) (c : Curve) (draws : List Nat) (p : ECPub)
    (h : deCompress k1name tag xb c draws = some (.ok p)) : p.curve = c := by
  unfold deCompress at h
  simp only [Option.map_eq_some_iff] at h
  obtain ⟨o, _, ho⟩ := h
  cases o with
  | none => simp at ho
  | some v => simp only [Res.ok.injEq] at ho; rw [← ho]

theorem unmarshal_ok (E : Ext) (d : Bytes) (p : ECPub) (h : unmarshalPubkey E d = .ok p) :
    d = sec1Uncompressed 32 p.x p.y := by
  unfold unmarshalPubkey at h
  simp only at h
  split at h
  · simp at h
  · rename_i hl
    split at h
    · simp at h
    · rename_i ht
      split at h
      · simp at h
      · split at h
        · simp only [Res.ok.injEq] at h
          subst h
          simp only [not_not] at hl ht
          cases d with
          | nil => simp at hl
          | cons t r =>
            simp only [List.getD_cons_zero] at ht
            subst ht
            simp only [List.drop_succ_cons, List.drop_zero, List.length_cons] at hl ⊢
            have e1 : beFix 32 (natOfBytes (r.take 32)) = r.take 32 := by
              have := beFix_natOfBytes (r.take 32)
              rwa [List.length_take, show min 32 r.length = 32 by omega] at this
            have e2 : beFix 32 (natOfBytes ((r.drop 32).take 32)) = (r.drop 32).take 32 := by
              have := beFix_natOfBytes ((r.drop 32).take 32)
              rwa [List.length_take, List.length_drop, show min 32 (r.length - 32) = 32 by omega] at this
            unfold sec1Uncompressed
            rw [e1, e2, List.take_of_length_le (l := r.drop 32) (by simp; omega), List.take_append_drop]
        · simp at h

/-! ## The order -/

theorem bytesLt_eq (a b : Bytes) : bytesLt a b = decide (a.map BitVec.toNat < b.map BitVec.toNat) := by
  induction a generalizing b with
  | nil => cases b <;> simp [bytesLt]
  | cons x xs ih =>
    cases b with
    | nil => simp [bytesLt]
    | cons y ys =>
      simp only [bytesLt, List.map_cons, List.cons_lt_cons_iff]
      by_cases h : x = y
      · subst h
        simp [ih]
      · have hn : x.toNat ≠ y.toNat := fun e => h (BitVec.eq_of_toNat_eq e)
        simp [h, hn]

theorem less_eq (E : Ext) (hE : GoodName E.k1name) {a b : PublicKey} {r s : List Nat}
    (ha : SortRank E.k1name a r) (hb : SortRank E.k1name b s) : less E a b = .ok (decide (r < s)) := by
  cases ha <;> cases hb <;>
    simp only [less, getKeyType, ne_eq, not_true_eq_false, if_false, if_true, List.cons_lt_cons_iff, bytesLt_eq] <;>
    try (simp; done)
  all_goals first
    | (rename_i h1 _ _ _ _ h2
       rw [getCurveLabel_label E hE h1, getCurveLabel_label E hE h2]
       simp only
       split
       · rename_i h
         have : ¬ (BitVec.toNat _ = BitVec.toNat _) := fun e => h (BitVec.eq_of_toNat_eq e)
         simp [this]
       · rename_i h
         simp only [not_not] at h
         subst h
         split
         · rename_i h; simp [h]
         · rename_i h; simp only [not_not] at h; simp [h])
    | (split
       · rename_i h; simp [h]
       · rename_i h; simp only [not_not] at h; simp [h])

end Verif.Keypair
