import Verif.Props.P256Curve
import Verif.Model.Protect
import Verif.Model.KeypairAmd64
import Verif.Spec.P256Mult
/-!
# Lemmas for C121: the functions that derive public keys, on amd64
-/
namespace Verif.Keypair
open Verif.EC

theorem getScalar_bytes (b : Bytes) : X64.P256.getScalar (bytesOfNat (natOfBytes b)) = X64.P256.getScalar b := by
  unfold X64.P256.getScalar
  rw [natOfBytes_bytesOfNat]

/-- `ScalarBaseMult` of amd64 depends on the number that the bytes denote only. -/
theorem scalarBaseMult_bytes (b : Bytes) :
    X64.P256.scalarBaseMult (bytesOfNat (natOfBytes b)) = X64.P256.scalarBaseMult b := by
  unfold X64.P256.scalarBaseMult
  rw [getScalar_bytes]

section
variable (k e : String) (f : Curve → Nat → Nat × Nat) (g : Bytes → Bytes)
theorem k1name_mk : (Ext.mk k e f g).k1name = k := rfl
theorem ethname_mk : (Ext.mk k e f g).ethname = e := rfl
theorem baseMult_mk : (Ext.mk k e f g).baseMult = f := rfl
theorem edPublic_mk : (Ext.mk k e f g).edPublic = g := rfl
end

theorem amd64_k1name (E : Ext) : (amd64 E).k1name = E.k1name := k1name_mk ..
theorem amd64_ethname (E : Ext) : (amd64 E).ethname = E.ethname := ethname_mk ..
theorem amd64_edPublic (E : Ext) : (amd64 E).edPublic = E.edPublic := edPublic_mk ..
theorem amd64_baseMult (E : Ext) (c : Curve) (k : Nat) : (amd64 E).baseMult c k =
    if c = Curves.sm2 then X64.P256.scalarBaseMult (bytesOfNat k) else E.baseMult c k := by
  unfold amd64; rw [baseMult_mk]

/-- Two sets of external functions that differ in `baseMult` only. -/
structure SameBut (E E' : Ext) : Prop where
  k1name : E'.k1name = E.k1name
  ethname : E'.ethname = E.ethname
  edPublic : E'.edPublic = E.edPublic

theorem amd64_sameBut (E : Ext) : SameBut E (amd64 E) := ⟨amd64_k1name E, amd64_ethname E, amd64_edPublic E⟩

variable {E E' : Ext}

theorem SameBut.ethCurve (h : SameBut E E') : ethCurve E' = Keypair.ethCurve E := by
  unfold Keypair.ethCurve; rw [h.ethname]

theorem SameBut.getCurve (h : SameBut E E') (l : Byte) : getCurve E' l = Keypair.getCurve E l := by
  unfold Keypair.getCurve; rw [h.k1name]

theorem SameBut.getNamedCurve (h : SameBut E E') (s : String) : getNamedCurve E' s = Keypair.getNamedCurve E s := by
  unfold Keypair.getNamedCurve
  have : getNamedCurveLabel E' s = getNamedCurveLabel E s := by unfold getNamedCurveLabel; rw [h.k1name]
  rw [this]
  congr 1
  funext l
  exact h.getCurve l

theorem construct_congr (c : Curve) (data : Bytes)
    (hb : E'.baseMult c (natOfBytes data) = E.baseMult c (natOfBytes data)) :
    constructPrivateKey E' data c = constructPrivateKey E data c := by
  unfold constructPrivateKey; dsimp only; rw [hb]

theorem generateEC_congr (c : Curve) (alg : Alg) (reads : List Bytes)
    (hb : ∀ D, genScalar c reads = some D → E'.baseMult c D = E.baseMult c D) :
    generateECKeyPair E' c alg reads = generateECKeyPair E c alg reads := by
  unfold generateECKeyPair
  cases hg : genScalar c reads with
  | none => rfl
  | some D => rw [Option.map_some, Option.map_some, hb D hg]

theorem generate_congr (h : SameBut E E') (t : Byte) (opts : Opts) (reads : List Bytes)
    (hb : ∀ c l D, t = PK_ECDSA ∨ t = PK_SM2 → opts = .byte l → getCurve E l = .ok c → genScalar c reads = some D →
      E'.baseMult c D = E.baseMult c D)
    (he : ∀ D, E'.baseMult (ethCurve E) D = E.baseMult (ethCurve E) D) :
    generateKeyPair E' t opts reads = generateKeyPair E t opts reads := by
  unfold generateKeyPair
  rw [h.ethCurve, h.edPublic]
  simp only [he]
  cases opts with
  | other => rfl
  | byte l =>
    dsimp only
    rw [h.getCurve]
    cases hc : getCurve E l with
    | err m => rfl
    | panic m => rfl
    | ok c =>
      dsimp only
      by_cases ht : t = PK_ECDSA ∨ t = PK_SM2
      · rw [if_pos ht, if_pos ht, generateEC_congr c _ reads (hb c l · ht rfl hc)]
      · rw [if_neg ht, if_neg ht]

theorem toECDSA_congr (h : SameBut E E') (d : Bytes) (he : ∀ D, E'.baseMult (ethCurve E) D = E.baseMult (ethCurve E) D) :
    toECDSA E' d = toECDSA E d := by
  unfold toECDSA
  rw [h.ethCurve]
  simp only [he]

theorem deserializePrivate_congr (h : SameBut E E') (data : Bytes) (draws : List Nat)
    (hb : ∀ c l D, data.getD 1 0 = l → getCurve E l = .ok c → D = natOfBytes ((data.drop 2).take c.byteSize) →
      E'.baseMult c D = E.baseMult c D)
    (he : ∀ D, E'.baseMult (ethCurve E) D = E.baseMult (ethCurve E) D) :
    deserializePrivateKey E' data draws = deserializePrivateKey E data draws := by
  unfold deserializePrivateKey
  rcases data with _ | ⟨t, _ | ⟨l, body⟩⟩
  · rfl
  · simp only [toECDSA_congr h _ he]
  · simp only [toECDSA_congr h _ he, h.getCurve]
    cases hc : getCurve E l with
    | err m => rfl
    | panic m => rfl
    | ok c =>
      dsimp only
      rw [construct_congr c (List.take c.byteSize body) (hb c l _ rfl hc rfl), h.k1name]

theorem decrypt_congr (h : SameBut E E') (X : ProtExt) (prot : Option ProtectedKey) (pwd : Bytes) (param : ScryptParam)
    (hb : ∀ alg priv, decryptWithCustomScrypt E X prot pwd param = .ok (.ec alg priv) →
      E'.baseMult priv.pub.curve priv.D = E.baseMult priv.pub.curve priv.D) :
    decryptWithCustomScrypt E' X prot pwd param = decryptWithCustomScrypt E X prot pwd param := by
  unfold decryptWithCustomScrypt at hb ⊢
  cases prot with
  | none => rfl
  | some prot =>
    dsimp only at hb ⊢
    split
    · rfl
    · rename_i hp
      rw [if_neg hp] at hb
      cases hd : decryptBody X prot pwd param with
      | err m => rfl
      | panic m => rfl
      | ok p =>
        rw [hd] at hb
        show decodeBody E' prot p = decodeBody E prot p
        have hb : ∀ alg priv, decodeBody E prot p = .ok (.ec alg priv) →
          E'.baseMult priv.pub.curve priv.D = E.baseMult priv.pub.curve priv.D := hb
        unfold decodeBody at hb ⊢
        split
        · rename_i ha
          rw [if_pos ha] at hb
          rw [h.getNamedCurve]
          cases hc : getNamedCurve E prot.curve with
          | err m => rfl
          | panic m => rfl
          | ok c =>
            rw [hc] at hb
            dsimp only at hb ⊢
            rw [construct_congr c p (hb _ _ rfl)]
        · rfl

end Verif.Keypair
