import Verif.Model.SM2Hasher
import Verif.Props.SM3
import Verif.Props.SM2Sign
/-!
# C100: SM2 signing and verification with a hash object that is used again and again

Specification: a program calls `Write`, `Sum` and `Reset` of one SM3 hasher and passes it to `Sign` and
`Verify`, in any order. The abstract hasher remembers the bytes written since the last reset; `Sign` and
`Verify` return what they return for the hash function `Spec.SM3.hash`.
-/
namespace Verif.Props
open Verif Verif.Spec

/-- A call in which the hasher takes part. -/
inductive HasherCall where
  | op (o : SM3Op)
  | sign (E : SM2.Ext) (fuel : ℕ) (rand : Bytes) (priv : ECPriv) (id msg : Bytes)
  | verify (E : SM2.Ext) (pub : ECPub) (id msg : Bytes) (r s : Int)

/-- The state of the hasher after a call, on the model of the Go code. -/
def HasherCall.run (d : SM3.Digest) : HasherCall → SM3.Digest
  | .op o => (o.run d).1
  | .sign E fuel rand priv id msg => (SM2.signObj SM2.sm3Obj E d fuel rand priv id msg).1
  | .verify E pub id msg r s => (SM2.verifyObj SM2.sm3Obj E d pub id msg r s).1

/-- A new hasher after any history of calls. -/
def usedHasher (before : List HasherCall) : SM3.Digest := before.foldl HasherCall.run SM3.new

theorem getZ_cases (H : Bytes → Bytes) (msg : Bytes) (pub : ECPub) (id : Bytes) :
    (∃ m, SM2.getZ H msg pub id = .err m) ∨ ∃ b, SM2.getZ H msg pub id = .ok (H b ++ msg) := by
  unfold SM2.getZ
  split_ifs
  · exact Or.inl ⟨_, rfl⟩
  · exact Or.inr ⟨_, rfl⟩
  · exact Or.inr ⟨_, rfl⟩

/-- The contract of a hash object: `R st m` says that `m` was written since the last reset. -/
structure HashObjLawful {σ : Type} (K : SM2.HashObj σ) (H : Bytes → Bytes) (R : σ → Bytes → Prop) : Prop where
  reset : ∀ st m, R st m → R (K.reset st) []
  write : ∀ st m p, R st m → R (K.write st p) (m ++ p)
  sum : ∀ st m inp, R st m → m.length < 2 ^ 61 → K.sum st inp = .ok (inp ++ H m)

theorem sm3Obj_lawful : HashObjLawful SM2.sm3Obj Spec.SM3.hash SM3.Rep where
  reset _ _ h := SM3.rep_reset h
  write _ _ p h := SM3.write_rep h p
  sum d m inp h hl := by
    change SM3.sum d inp = _
    rw [SM3.sum, SM3.checkSum_eq h (by omega)]

section
variable {σ : Type} {K : SM2.HashObj σ} {H : Bytes → Bytes} {R : σ → Bytes → Prop} (hK : HashObjLawful K H R)
include hK

theorem getZObj_spec {st : σ} (h : ∃ m, R st m) (msg : Bytes) (pub : ECPub) (id : Bytes) :
    (∃ m, R (SM2.getZObj K st msg pub id).1 m) ∧ (pub.x < 2 ^ 256 → pub.y < 2 ^ 256 → id.length < 2 ^ 60 →
      (SM2.getZObj K st msg pub id).2 = SM2.getZ H msg pub id) := by
  obtain ⟨m, hm⟩ := h
  unfold SM2.getZObj SM2.getZ
  by_cases hc : pub.curve = Curves.sm2
  swap
  · rw [if_pos hc, if_pos hc]
    exact ⟨⟨m, hm⟩, fun _ _ _ => rfl⟩
  have hc' : ¬ pub.curve ≠ Curves.sm2 := not_not.2 hc
  rw [if_neg hc', if_neg hc', hc]
  have hid' : id.length < 2 ^ 60 → (if id.length = 0 then SM2.defaultID else id).length < 2 ^ 60 := by
    intro hid
    split_ifs
    · decide
    · exact hid
  have hlx : pub.x < 2 ^ 256 → (bytesOfNat pub.x).length ≤ 32 := fun hx => by
    rw [bytesOfNat_length, byteLen_le_iff]; exact hx
  have hly : pub.y < 2 ^ 256 → (bytesOfNat pub.y).length ≤ 32 := fun hy => by
    rw [bytesOfNat_length, byteLen_le_iff]; exact hy
  have hcs : (SM2Curve.aBytes ++ bytesOfNat Curves.sm2.B ++ bytesOfNat Curves.sm2.Gx ++
      bytesOfNat Curves.sm2.Gy).length = 128 := by decide +kernel
  generalize (if id.length = 0 then SM2.defaultID else id) = u at *
  generalize bytesOfNat pub.x = x at *
  generalize bytesOfNat pub.y = y at *
  generalize bytesOfNat Curves.sm2.B = b at *
  generalize bytesOfNat Curves.sm2.Gx = gx at *
  generalize bytesOfNat Curves.sm2.Gy = gy at *
  generalize SM2Curve.aBytes = a at *
  simp only [List.length_append] at hcs
  have h0 := hK.reset _ _ hm
  have h1 := hK.write _ _ [BitVec.ofNat 8 ((u.length * 8) >>> 8), BitVec.ofNat 8 (u.length * 8)] h0
  have h2 := hK.write _ _ y (hK.write _ _ x (hK.write _ _ gy (hK.write _ _ gx (hK.write _ _ b
    (hK.write _ _ a (hK.write _ _ u h1))))))
  dsimp only
  refine ⟨⟨_, h2⟩, fun hx hy hid => ?_⟩
  have := hid' hid
  have := hlx hx
  have := hly hy
  have hs := hK.sum _ _ [] h2 (by simp only [List.length_append, List.length_cons, List.length_nil]; omega)
  simp only [hs, Res.map, List.nil_append]

theorem digestObj_spec {st : σ} (h : ∃ m, R st m) (mz : Bytes) :
    (∃ m, R (SM2.digestObj K st mz).1 m) ∧ (mz.length < 2 ^ 61 → (SM2.digestObj K st mz).2 = .ok (H mz)) := by
  obtain ⟨m, hm⟩ := h
  have h1 := hK.write _ _ mz (hK.reset _ _ hm)
  rw [List.nil_append] at h1
  exact ⟨⟨_, h1⟩, fun hl => hK.sum _ _ [] h1 hl⟩

theorem signObj_spec {st : σ} (h : ∃ m, R st m) (E : SM2.Ext) (fuel : ℕ) (rand : Bytes) (priv : ECPriv)
    (id msg : Bytes) :
    (∃ m, R (SM2.signObj K E st fuel rand priv id msg).1 m) ∧
    (priv.pub.x < 2 ^ 256 → priv.pub.y < 2 ^ 256 → id.length < 2 ^ 60 → msg.length < 2 ^ 60 →
      (∀ m, (H m).length < 2 ^ 60) →
      (SM2.signObj K E st fuel rand priv id msg).2 = SM2.sign E H fuel rand priv id msg) := by
  obtain ⟨h1, e1⟩ := getZObj_spec hK h msg priv.pub id
  unfold SM2.signObj SM2.sign
  generalize SM2.getZObj K st msg priv.pub id = z at *
  constructor
  · simp only
    cases z.2 with
    | err m => exact h1
    | panic m => exact h1
    | ok mz =>
      have h2 := (digestObj_spec hK h1 mz).1
      simp only
      cases (SM2.digestObj K z.1 mz).2 with
      | err m => exact h2
      | panic m => exact h2
      | ok dg => simp only; split_ifs <;> exact h2
  · intro hx hy hid hm hH
    simp only [e1 hx hy hid]
    cases hz : SM2.getZ H msg priv.pub id with
    | err m => rfl
    | panic m => rfl
    | ok mz =>
      have hl : mz.length < 2 ^ 61 := by
        obtain ⟨m, e⟩ | ⟨b, e⟩ := getZ_cases H msg priv.pub id <;> rw [hz] at e
        · cases e
        · cases e
          have := hH b
          rw [List.length_append]; omega
      simp only [(digestObj_spec hK h1 mz).2 hl]
      split_ifs <;> rfl

theorem verifyObj_spec {st : σ} (h : ∃ m, R st m) (E : SM2.Ext) (pub : ECPub) (id msg : Bytes) (r s : Int) :
    (∃ m, R (SM2.verifyObj K E st pub id msg r s).1 m) ∧
    (pub.x < 2 ^ 256 → pub.y < 2 ^ 256 → id.length < 2 ^ 60 → msg.length < 2 ^ 60 →
      (∀ m, (H m).length < 2 ^ 60) →
      (SM2.verifyObj K E st pub id msg r s).2 = .ok (SM2.verify E H pub id msg r s)) := by
  obtain ⟨h1, e1⟩ := getZObj_spec hK h msg pub id
  unfold SM2.verifyObj SM2.verify
  generalize SM2.getZObj K st msg pub id = z at *
  generalize SM2.combine E pub s.toNat ((r + s) % (pub.curve.N : ℤ)).toNat = q
  simp only
  split_ifs <;> first | exact ⟨h, fun _ _ _ _ _ => rfl⟩ | skip
  constructor
  · cases z.2 with
    | err m => exact h1
    | panic m => exact h1
    | ok mz => exact (digestObj_spec hK h1 mz).1
  · intro hx hy hid hm hH
    rw [e1 hx hy hid]
    cases hz : SM2.getZ H msg pub id with
    | err m => rfl
    | panic m =>
      obtain ⟨m, e⟩ | ⟨b, e⟩ := getZ_cases H msg pub id <;> rw [hz] at e <;> cases e
    | ok mz =>
      have hl : mz.length < 2 ^ 61 := by
        obtain ⟨m, e⟩ | ⟨b, e⟩ := getZ_cases H msg pub id <;> rw [hz] at e
        · cases e
        · cases e
          have := hH b
          rw [List.length_append]; omega
      simp only [(digestObj_spec hK h1 mz).2 hl]
      rfl

end

theorem run_rep {d : SM3.Digest} (h : ∃ m, SM3.Rep d m) (c : HasherCall) : ∃ m, SM3.Rep (c.run d) m := by
  cases c with
  | op o =>
    obtain ⟨m, hm⟩ := h
    cases o with
    | write p => exact ⟨_, SM3.write_rep hm p⟩
    | sum inp => exact ⟨m, hm⟩
    | reset => exact ⟨[], SM3.rep_reset hm⟩
  | sign E fuel rand priv id msg => exact (signObj_spec sm3Obj_lawful h E fuel rand priv id msg).1
  | verify E pub id msg r s => exact (verifyObj_spec sm3Obj_lawful h E pub id msg r s).1

theorem used_rep (before : List HasherCall) : ∃ m, SM3.Rep (usedHasher before) m := by
  unfold usedHasher
  suffices h : ∀ (l : List HasherCall) d, (∃ m, SM3.Rep d m) → ∃ m, SM3.Rep (l.foldl HasherCall.run d) m from
    h before _ ⟨[], SM3.rep_new⟩
  intro l
  induction l with
  | nil => exact fun d h => h
  | cons c l ih => exact fun d h => ih _ (run_rep h c)

/-- **C100** `Sign` with an SM3 hasher that was used in any way before returns what it returns with the SM3
function of the standard. -/
theorem C100_sign (before : List HasherCall) (E : SM2.Ext) (fuel : ℕ) (rand : Bytes) (priv : ECPriv) (id msg : Bytes)
    (hx : priv.pub.x < 2 ^ 256) (hy : priv.pub.y < 2 ^ 256) (hid : id.length < 2 ^ 60) (hm : msg.length < 2 ^ 60) :
    (SM2.signObj SM2.sm3Obj E (usedHasher before) fuel rand priv id msg).2 =
      SM2.sign E Spec.SM3.hash fuel rand priv id msg :=
  (signObj_spec sm3Obj_lawful (used_rep before) E fuel rand priv id msg).2 hx hy hid hm
    (fun m => by rw [SM3.spec_hash_length]; decide)

/-- **C100** The same for `Verify`, which does not panic. -/
theorem C100_verify (before : List HasherCall) (E : SM2.Ext) (pub : ECPub) (id msg : Bytes) (r s : Int)
    (hx : pub.x < 2 ^ 256) (hy : pub.y < 2 ^ 256) (hid : id.length < 2 ^ 60) (hm : msg.length < 2 ^ 60) :
    (SM2.verifyObj SM2.sm3Obj E (usedHasher before) pub id msg r s).2 =
      .ok (SM2.verify E Spec.SM3.hash pub id msg r s) :=
  (verifyObj_spec sm3Obj_lawful (used_rep before) E pub id msg r s).2 hx hy hid hm
    (fun m => by rw [SM3.spec_hash_length]; decide)

/-- **C100** After any such history, a hasher that is reset is as good as new. -/
theorem C100_reset (before : List HasherCall) (ops : List SM3Op) (h : SM3Op.written ops < 2 ^ 61) :
    outputs SM3Op.run (SM3.reset (usedHasher before)) ops = outputs SM3Op.spec [] ops := by
  obtain ⟨m, hm⟩ := used_rep before
  exact C02_from (SM3.rep_reset hm) ops (by simpa using h)

/-- A history that leaves bytes behind, and a key to which the theorems apply. -/
example : (usedHasher [.op (.write [1, 2]), .verify refSM2 priv2.pub [] abc 1 1, .op (.write [3])]).nx ≠ 0 ∧
    priv2.pub.x < 2 ^ 256 ∧ priv2.pub.y < 2 ^ 256 := by
  decide +kernel

end Verif.Props
