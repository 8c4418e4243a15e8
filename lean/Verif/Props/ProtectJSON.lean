import Verif.Lemmas.ProtectJSON
import Verif.Props.Protect
/-!
# C107: protected keys and scrypt parameters survive storage as JSON
-/
namespace Verif.Props
open Verif Verif.Keypair Verif.ProtectJSON Verif.Spec

/-- All strings in the structure are UTF-8 text. -/
def TextFields (p : Prot) : Prop :=
  UTF8.Valid p.address ∧ UTF8.Valid p.encAlg ∧ UTF8.Valid p.alg ∧ UTF8.Valid p.hash ∧
    ∀ e ∈ p.param.getD [], UTF8.Valid e.1 ∧ UTF8.Valid e.2

/-- Empty slices and maps of omitted members come back as nil. -/
def emptyToNil (p : Prot) : Prot :=
  { p with
    salt := if p.salt = some [] then none else p.salt
    param := if p.param = some [] then none else p.param }

theorem putEntries (l : List (Bytes × Bytes)) : ∀ m : List (Bytes × Bytes),
    ((m ++ l).map Prod.fst).Nodup → l.foldl putEntry m = m ++ l := by
  induction l with
  | nil => intro m _; simp
  | cons e l ih =>
    intro m h
    have hn : m.any (fun x => x.1 == e.1) = false := by
      rw [List.any_eq_false]
      intro x hx hxe
      simp only [beq_iff_eq] at hxe
      rw [List.map_append, List.nodup_append] at h
      exact h.2.2 x.1 (List.mem_map_of_mem hx) e.1 (by simp) hxe
    rw [List.foldl_cons, putEntry, if_neg (by simp [hn]), ih (m ++ [e]) (by simpa using h)]
    simp

/-- **C107** A protected key survives `json.Marshal` and `json.Unmarshal`: every field comes back, for all
values whose strings are UTF-8 (a map has distinct keys). The empty slice and the empty map come back as
nil. -/
theorem C107_roundtrip_partial (p : Prot) (ht : TextFields p) (hm : ((p.param.getD []).map Prod.fst).Nodup) :
    unmarshal (marshal p) = .ok (emptyToNil p) := by
  obtain ⟨h1, h2, h3, h4, h5⟩ := ht
  obtain ⟨address, encAlg, key, alg, salt, hash, param⟩ := p
  dsimp only at h1 h2 h3 h4 h5 hm
  have f0 : fieldOf protNames (ascii "address") = some 0 := by decide
  have f1 : fieldOf protNames (ascii "enc-alg") = some 1 := by decide
  have f2 : fieldOf protNames (ascii "key") = some 2 := by decide
  have f3 : fieldOf protNames (ascii "algorithm") = some 3 := by decide
  have f4 : fieldOf protNames (ascii "salt") = some 4 := by decide
  have f5 : fieldOf protNames (ascii "hash") = some 5 := by decide
  have f6 : fieldOf protNames (ascii "parameters") = some 6 := by decide
  have hkey : ∀ (old k : Option Bytes), setBytes old (jbytes k) = .ok k := by
    intro old k
    cases k with
    | none => rfl
    | some b => simp [jbytes, setBytes, b64_roundtrip]
  have hmap : (param.getD []).map (fun e => (fixUTF8 e.1, fixUTF8 e.2)) = param.getD [] := by
    conv_rhs => rw [← List.map_id (param.getD [])]
    apply List.map_congr_left
    intro e he
    rw [(fixUTF8_eq_iff _).2 (h5 e he).1, (fixUTF8_eq_iff _).2 (h5 e he).2]
    rfl
  have hput : (param.getD []).foldl putEntry [] = param.getD [] := by
    have := putEntries (param.getD []) [] (by simpa using hm)
    simpa using this
  simp only [marshal, unmarshal, (fixUTF8_eq_iff _).2 h1, (fixUTF8_eq_iff _).2 h2, (fixUTF8_eq_iff _).2 h3,
    (fixUTF8_eq_iff _).2 h4, hmap]
  have es : (salt.getD []).length = 0 → (if salt = some [] then none else salt) = none := by
    rcases salt with _ | _ | ⟨a, t⟩ <;> simp
  have es' : ¬ (salt.getD []).length = 0 → (if salt = some [] then none else salt) = salt := by
    rcases salt with _ | _ | ⟨a, t⟩ <;> simp
  have ep : (param.getD []).length = 0 → (if param = some [] then none else param) = none := by
    rcases param with _ | _ | ⟨a, t⟩ <;> simp
  have ep' : ¬ (param.getD []).length = 0 → (if param = some [] then none else param) = some (param.getD []) := by
    rcases param with _ | _ | ⟨a, t⟩ <;> simp
  simp only [List.cons_append, List.nil_append, List.append_assoc]
  simp only [unmarshalInto, setMember, f0, f1, f2, f3, setStr, hkey, Res.map, Res.bind, Prot.zero, emptyToNil]
  by_cases c1 : (salt.getD []).length = 0 <;> by_cases c3 : (param.getD []).length = 0 <;>
    by_cases c2 : hash.length = 0 <;>
    simp only [c1, c2, c3, es, es', ep, ep', not_false_eq_true, if_true, if_false, List.nil_append, List.cons_append,
      unmarshalInto, setMember, f4, f5, f6, setStr, hkey, setMap, Option.getD_none, hput, Res.map, Res.bind,
      Res.ok.injEq, Prot.mk.injEq, true_and, and_true]
  all_goals exact (List.length_eq_zero_iff.1 c2).symm

/-- An address that is not UTF-8 does not survive: what comes back is different, all other fields being the
same. -/
theorem C107_not_text (p : Prot) (ht : TextFields { p with address := [] })
    (hm : ((p.param.getD []).map Prod.fst).Nodup) (ha : ¬ UTF8.Valid p.address) :
    ∃ a, a ≠ p.address ∧ unmarshal (marshal p) = .ok (emptyToNil { p with address := a }) := by
  have hv : UTF8.Valid (fixUTF8 p.address) := fixFrom_isValid _ _
  refine ⟨fixUTF8 p.address, fun h => ha ((fixUTF8_eq_iff _).1 h), ?_⟩
  have hsame : marshal p = marshal { p with address := fixUTF8 p.address } := by
    simp only [marshal, (fixUTF8_eq_iff _).2 hv]
  rw [hsame]
  exact C107_roundtrip_partial _ ⟨hv, ht.2⟩ hm

/-! ## Stored keys -/

/-- ASCII text, one byte per character. -/
theorem valid_of_ascii (s : Bytes) (h : ∀ b ∈ s, b.toNat < 0x80) : UTF8.Valid s := by
  refine ⟨s.map BitVec.toNat, ?_, ?_⟩
  · intro n hn
    obtain ⟨b, hb, rfl⟩ := List.mem_map.1 hn
    exact .inl (by have := h b hb; omega)
  · induction s with
    | nil => rfl
    | cons b t ih =>
      simp only [List.map_cons, List.flatMap_cons]
      rw [← ih (fun b hb => h b (by simp [hb]))]
      simp [UTF8.encode, h b (by simp)]

/-- The names that occur in protected keys. -/
def protNamesUsed : List String :=
  ["aes-256-gcm", "ECDSA", "SM2", "Ed25519", "P-224", "P-256", "P-384", "P-521", "sm2p256v1", "secp256k1", "", "curve"]

theorem used_ascii : ∀ s ∈ protNamesUsed, (∀ b ∈ ascii s, b.toNat < 0x80) ∧ latin (ascii s) = s := by decide +kernel

theorem used_valid {s : String} (h : s ∈ protNamesUsed) : UTF8.Valid (ascii s) :=
  valid_of_ascii _ (used_ascii s h).1

theorem used_body (E : Ext) (hE : GoodName E.k1name) {k : PrivateKey} (hk : Exportable E k) :
    ∃ p alg curve, bodyOf k = some (p, alg, curve) ∧ alg ∈ protNamesUsed ∧ curve ∈ protNamesUsed ∧
      (alg = "Ed25519" → curve = "") := by
  cases k with
  | ec a t =>
    obtain ⟨ha, hc, _⟩ := hk
    have hn : t.pub.curve.name ∈ protNamesUsed := by
      simp only [Curves.all, List.mem_cons, List.not_mem_nil, or_false] at hc
      rcases hc with h | h | h | h | h | h <;> rw [h]
      · decide
      · decide
      · decide
      · decide
      · rcases hE with h' | h' <;> rw [h'] <;> decide
      · decide
    rcases ha with rfl | rfl
    · exact ⟨_, _, _, rfl, by decide, hn, fun h => absurd h (by decide)⟩
    · exact ⟨_, _, _, rfl, by decide, hn, fun h => absurd h (by decide)⟩
  | ed b => exact ⟨_, _, _, rfl, by decide, by decide, fun _ => rfl⟩
  | eth t => exact absurd hk id
  | unknown => exact absurd hk id

/-- The JSON form of a protected key and its way back, for any address. -/
theorem stored_back (prot : ProtectedKey) (h1 : prot.encAlg ∈ protNamesUsed) (h2 : prot.alg ∈ protNamesUsed)
    (h3 : prot.curve ∈ protNamesUsed) (h4 : prot.alg = "Ed25519" → prot.curve = "") (hs : prot.salt ≠ []) :
    ∃ q, unmarshal (marshal (ofProtected prot)) = .ok q ∧
      toProtected q = { prot with address := fixUTF8 prot.address } := by
  obtain ⟨address, encAlg, key, alg, salt, curve⟩ := prot
  dsimp only at h1 h2 h3 h4 hs
  have hnil : UTF8.Valid [] := ⟨[], by simp, rfl⟩
  have hv : UTF8.Valid (fixUTF8 address) := fixFrom_isValid _ _
  have hsame : marshal (ofProtected ⟨address, encAlg, key, alg, salt, curve⟩) =
      marshal (ofProtected ⟨fixUTF8 address, encAlg, key, alg, salt, curve⟩) := by
    simp only [marshal, ofProtected, (fixUTF8_eq_iff _).2 hv]
  have hcurve : UTF8.Valid (ascii "curve") := used_valid (by decide)
  refine ⟨emptyToNil (ofProtected ⟨fixUTF8 address, encAlg, key, alg, salt, curve⟩), ?_, ?_⟩
  · rw [hsame]
    apply C107_roundtrip_partial
    · refine ⟨hv, used_valid h1, used_valid h2, hnil, ?_⟩
      intro e he
      simp only [ofProtected] at he
      split_ifs at he
      · simp at he
      · simp only [Option.getD_some, List.mem_singleton] at he
        subst he
        exact ⟨hcurve, used_valid h3⟩
    · simp only [ofProtected]
      split_ifs <;> simp
  · simp only [toProtected, emptyToNil, ofProtected, (used_ascii _ h1).2, (used_ascii _ h2).2, Option.getD_some,
      Option.some.injEq, hs, if_false, ProtectedKey.mk.injEq, true_and]
    by_cases c : alg = "Ed25519"
    · simp only [c, if_true, h4 c]
      rfl
    · simp [c, (used_ascii _ h3).2]

/-- **C107** The stored form, for programs that read it without this package (wallet files): the address, the
cipher, the GCM sealing of the private key, the key's algorithm, the salt and, for EC keys, the curve, under
the documented names; the sealing is under the last 32 bytes of the derived key with its first 12 bytes as
nonce, and is bound to the address. -/
theorem C107_format (E : Ext) (hE : GoodName E.k1name) (X : ProtExt) (hX : X.Lawful) (k : PrivateKey)
    (hk : Exportable E k) (addr pwd salt : Bytes) (param : ScryptParam) (hs : salt.length = 16)
    (ha : UTF8.Valid addr) (d : Bytes) (hd : kdf X pwd salt param = .ok d) (prot : ProtectedKey)
    (he : encryptWithCustomScrypt X k addr pwd param (.ok salt) = .ok prot) :
    ∃ plain alg, marshal (ofProtected prot) =
      [(ascii "address", .str addr), (ascii "enc-alg", .str (ascii "aes-256-gcm")),
        (ascii "key", .str (b64enc (X.gcmSeal (d.drop (d.length - 32)) (d.take 12) plain addr))),
        (ascii "algorithm", .str (ascii alg)), (ascii "salt", .str (b64enc salt))] ++
        (match k with
          | .ec _ t => [(ascii "parameters", .obj [(ascii "curve", ascii t.pub.curve.name)])]
          | _ => []) ∧
      ((∃ t, k = .ec .ecdsa t ∧ alg = "ECDSA" ∧ plain = bytesOfNat t.D) ∨
        (∃ t, k = .ec .sm2 t ∧ alg = "SM2" ∧ plain = bytesOfNat t.D) ∨
        (∃ b, k = .ed b ∧ alg = "Ed25519" ∧ plain = b)) := by
  obtain ⟨p, alg, curve, hb, u1, u2, u3⟩ := used_body E hE hk
  rw [encrypt_eq hX k addr pwd salt param hd, hb] at he
  obtain rfl := Res.ok.inj he
  refine ⟨p, alg, ?_, ?_⟩
  · have hs' : ¬ salt.length = 0 := by omega
    have e1 : fixUTF8 (ascii "aes-256-gcm") = ascii "aes-256-gcm" := (fixUTF8_eq_iff _).2 (used_valid (by decide))
    have e2 : fixUTF8 (ascii alg) = ascii alg := (fixUTF8_eq_iff _).2 (used_valid u1)
    have e3 : fixUTF8 (ascii curve) = ascii curve := (fixUTF8_eq_iff _).2 (used_valid u2)
    have e4 : fixUTF8 (ascii "curve") = ascii "curve" := (fixUTF8_eq_iff _).2 (used_valid (by decide))
    have e5 := (fixUTF8_eq_iff _).2 ha
    simp only [marshal, ofProtected, Option.getD_some, hs', if_false, jbytes, e1, e2, e5, ekeyOf, List.length_nil,
      if_true, List.append_nil]
    cases k with
    | ec a t =>
      obtain ⟨ha, _⟩ := hk
      rcases ha with rfl | rfl <;>
      · simp only [bodyOf, Option.some.injEq, Prod.mk.injEq] at hb
        obtain ⟨_, rfl, rfl⟩ := hb
        simp [e3, e4]
    | ed b =>
      simp only [bodyOf, Option.some.injEq, Prod.mk.injEq] at hb
      obtain ⟨_, rfl, rfl⟩ := hb
      simp
    | eth t => exact absurd hk id
    | unknown => exact absurd hk id
  · cases k with
    | ec a t =>
      obtain ⟨ha, _⟩ := hk
      rcases ha with rfl | rfl <;>
      · simp only [bodyOf, Option.some.injEq, Prod.mk.injEq] at hb
        simp [hb.1, hb.2.1]
    | ed b =>
      simp only [bodyOf, Option.some.injEq, Prod.mk.injEq] at hb
      simp [hb.1, hb.2.1]
    | eth t => exact absurd hk id
    | unknown => exact absurd hk id

/-- **C107 (partial)** A private key that is encrypted, stored as JSON, read back and decrypted is the same
key, for every exportable key, password, address that is UTF-8 text, scrypt parameters and salt of 16 bytes.
Missing: addresses that are not UTF-8 (`C107_stored_not_text`). -/
theorem C107_stored_partial (E : Ext) (hE : GoodName E.k1name) (X : ProtExt) (hX : X.Lawful) (k : PrivateKey)
    (hk : Exportable E k) (addr pwd salt : Bytes) (param : ScryptParam) (hpwd : pwd ≠ []) (hs : salt.length = 16)
    (ha : UTF8.Valid addr) (d : Bytes) (hd : kdf X pwd salt param = .ok d) :
    ∃ prot q, encryptWithCustomScrypt X k addr pwd param (.ok salt) = .ok prot ∧
      unmarshal (marshal (ofProtected prot)) = .ok q ∧
      decryptWithCustomScrypt E X (some (toProtected q)) pwd param = .ok k := by
  obtain ⟨prot, h1, _, h3⟩ := (C26_protect_roundtrip E hE X hX k hk addr pwd salt param hpwd).1 d hd
  obtain ⟨p, alg, curve, hb, u1, u2, u3⟩ := used_body E hE hk
  have h1' := h1
  rw [encrypt_eq hX k addr pwd salt param hd, hb] at h1'
  obtain rfl := Res.ok.inj h1'
  obtain ⟨q, hq1, hq2⟩ := stored_back
    ⟨addr, "aes-256-gcm", X.gcmSeal (ekeyOf d) (d.take 12) p addr, alg, salt, curve⟩
    (by decide : ("aes-256-gcm" : String) ∈ protNamesUsed) u1 u2 u3
    (by intro h; dsimp only at h; rw [h] at hs; simp at hs)
  refine ⟨_, q, h1, hq1, ?_⟩
  rw [hq2, (fixUTF8_eq_iff _).2 ha]
  exact h3

/-- For every address that is not UTF-8 the stored key comes back with another address, and it can be decrypted
only if GCM accepts a sealing under one address for another. -/
theorem C107_stored_not_text (E : Ext) (hE : GoodName E.k1name) (X : ProtExt) (hX : X.Lawful) (k : PrivateKey)
    (hk : Exportable E k) (addr pwd salt : Bytes) (param : ScryptParam) (hs : salt.length = 16)
    (ha : ¬ UTF8.Valid addr) (d : Bytes) (hd : kdf X pwd salt param = .ok d) :
    ∃ prot q, encryptWithCustomScrypt X k addr pwd param (.ok salt) = .ok prot ∧
      unmarshal (marshal (ofProtected prot)) = .ok q ∧ (toProtected q).address ≠ addr ∧
      ∀ k', decryptWithCustomScrypt E X (some (toProtected q)) pwd param = .ok k' →
        ∃ p p', prot.key = X.gcmSeal (ekeyOf d) (d.take 12) p addr ∧
          prot.key = X.gcmSeal (ekeyOf d) (d.take 12) p' (toProtected q).address := by
  obtain ⟨p, alg, curve, hb, u1, u2, u3⟩ := used_body E hE hk
  have h1 := encrypt_eq hX k addr pwd salt param hd
  rw [hb] at h1
  obtain ⟨q, hq1, hq2⟩ := stored_back
    ⟨addr, "aes-256-gcm", X.gcmSeal (ekeyOf d) (d.take 12) p addr, alg, salt, curve⟩
    (by decide : ("aes-256-gcm" : String) ∈ protNamesUsed) u1 u2 u3
    (by intro h; dsimp only at h; rw [h] at hs; simp at hs)
  refine ⟨_, q, h1, hq1, ?_, ?_⟩
  · rw [hq2]
    exact fun h => ha ((fixUTF8_eq_iff _).1 h)
  · intro k' hk'
    rw [hq2] at hk' ⊢
    obtain ⟨_, d', p', h2, h3, _⟩ := (decrypt_gcm_iff E hX _ pwd param rfl k').1 hk'
    dsimp only at h2 h3 ⊢
    rw [hd] at h2
    obtain rfl := Res.ok.inj h2
    exact ⟨p, p', rfl, h3⟩

/-- Scrypt parameters survive, all of them. -/
theorem C107_scrypt (p : ScryptParam) : unmarshalScrypt (marshalScrypt p) = .ok p := by
  have f0 : fieldOf scryptNames (ascii "p") = some 0 := by decide
  have f1 : fieldOf scryptNames (ascii "n") = some 1 := by decide
  have f2 : fieldOf scryptNames (ascii "r") = some 2 := by decide
  have f3 : fieldOf scryptNames (ascii "dkLen") = some 3 := by decide
  obtain ⟨P, N, R, L⟩ := p
  by_cases h : L = 0 <;>
    simp [marshalScrypt, unmarshalScrypt, unmarshalScryptInto, setScrypt, f0, f1, f2, f3, setInt, Res.map, Res.bind, h]

/-! ## Objects written by other programs -/

/-- Two bytes are the same ASCII letter but for its case, or equal. -/
def sameLetter (x y : Byte) : Bool :=
  x == y || (x.toNat + 32 == y.toNat && 65 ≤ x.toNat && x.toNat < 65 + 26) ||
    (y.toNat + 32 == x.toNat && 65 ≤ y.toNat && y.toNat < 65 + 26)

/-- Two member names are the same ignoring case. -/
def sameMember (a b : Bytes) : Bool := a.length == b.length && (a.zip b).all fun e => sameLetter e.1 e.2

/-- The values that an object gives for a name, in order. -/
def valuesOf (nm : String) (o : JObj) : List JVal :=
  (o.filter fun e => sameMember (ascii nm) e.1).map Prod.snd

theorem lower_byte (x y : Byte) :
    ((if 0x41 ≤ x.toNat ∧ x.toNat ≤ 0x5A then x + 0x20 else x) =
      (if 0x41 ≤ y.toNat ∧ y.toNat ≤ 0x5A then y + 0x20 else y)) ↔ sameLetter x y = true := by
  have hx := x.isLt
  have hy := y.isLt
  unfold sameLetter
  simp only [Bool.or_eq_true, Bool.and_eq_true, beq_iff_eq, decide_eq_true_eq, ← BitVec.toNat_inj]
  split_ifs <;> (try simp only [BitVec.toNat_add, BitVec.reduceToNat]) <;> omega

theorem lower_eq_iff : ∀ a b : Bytes, lower a = lower b ↔ sameMember a b = true
  | [], [] => by simp [lower, sameMember]
  | [], _ :: _ => by simp [lower, sameMember]
  | _ :: _, [] => by simp [lower, sameMember]
  | x :: a, y :: b => by
    have ih := lower_eq_iff a b
    simp only [lower, List.map_cons, List.cons.injEq, sameMember, List.length_cons, List.zip_cons_cons,
      List.all_cons, Bool.and_eq_true, beq_iff_eq, Nat.add_right_cancel_iff] at ih ⊢
    rw [lower_byte, ih]
    tauto

/-- The first name that agrees ignoring case is the field, if no two names agree. -/
theorem fieldOf_iff (names : List Bytes) (hd : (names.map lower).Nodup) (nm : Bytes) (i : Nat) :
    fieldOf names nm = some i ↔ ∃ h : i < names.length, sameMember names[i] nm = true := by
  have key : ∀ i, (∃ h : i < names.length, sameMember names[i] nm = true) ↔
      names.findIdx? (fun n => lower n == lower nm) = some i := by
    intro i
    rw [List.findIdx?_eq_some_iff_getElem]
    constructor
    · rintro ⟨h, h1⟩
      rw [← lower_eq_iff] at h1
      refine ⟨h, by simpa using h1, fun j hj => ?_⟩
      simp only [beq_iff_eq]
      intro h2
      have := (List.nodup_iff_injective_get.1 hd)
      have h3 : (⟨j, by simp; omega⟩ : Fin (names.map lower).length) = ⟨i, by simpa using h⟩ := by
        apply this
        simp [h1, h2]
      simp at h3
      omega
    · rintro ⟨h, h1, _⟩
      exact ⟨h, by rw [← lower_eq_iff]; simpa using h1⟩
  unfold fieldOf
  cases hf : names.findIdx? (· == nm) with
  | none => exact (key i).symm
  | some j =>
    rw [List.findIdx?_eq_some_iff_getElem] at hf
    obtain ⟨h, h1, _⟩ := hf
    have h2 : names.findIdx? (fun n => lower n == lower nm) = some j := by
      rw [← key]
      refine ⟨h, ?_⟩
      rw [← lower_eq_iff]
      simp only [beq_iff_eq] at h1
      rw [h1]
    rw [key, h2]

theorem scryptNames_nodup : (scryptNames.map lower).Nodup := by decide

theorem protNames_nodup : (protNames.map lower).Nodup := by decide

/-- The last number among the values; null and the absence of values leave 0. -/
def lastNum (d : Int) : List JVal → Int
  | [] => d
  | .num n :: l => lastNum n l
  | _ :: l => lastNum d l

/-- Values that an integer field takes. -/
def isInt : JVal → Bool
  | .num _ => true
  | .null => true
  | _ => false

theorem setInt_iff (d : Int) (v : JVal) (l : List JVal) :
    (isInt v = true → ∃ r, setInt d v = .ok r ∧ lastNum d (v :: l) = lastNum r l) ∧
    (isInt v = false → ∃ m, setInt d v = .err m) := by
  cases v <;> simp [isInt, setInt, lastNum]

theorem valuesOf_cons (nm : String) (e : Bytes × JVal) (o : JObj) :
    valuesOf nm (e :: o) = if sameMember (ascii nm) e.1 = true then e.2 :: valuesOf nm o else valuesOf nm o := by
  unfold valuesOf
  rw [List.filter_cons]
  split_ifs <;> rfl

theorem scrypt_member (nm : Bytes) :
    (sameMember (ascii "p") nm = true ↔ fieldOf scryptNames nm = some 0) ∧
    (sameMember (ascii "n") nm = true ↔ fieldOf scryptNames nm = some 1) ∧
    (sameMember (ascii "r") nm = true ↔ fieldOf scryptNames nm = some 2) ∧
    (sameMember (ascii "dkLen") nm = true ↔ fieldOf scryptNames nm = some 3) := by
  simp only [fieldOf_iff _ scryptNames_nodup]
  refine ⟨?_, ?_, ?_, ?_⟩ <;> exact ⟨fun h => ⟨by decide, h⟩, fun ⟨_, h⟩ => h⟩

theorem scrypt_read_into (o : JObj) : ∀ p₀ p : ScryptParam, unmarshalScryptInto p₀ o = .ok p ↔
      (∀ nm ∈ ["p", "n", "r", "dkLen"], ∀ v ∈ valuesOf nm o, isInt v = true) ∧
      p.P = lastNum p₀.P (valuesOf "p" o) ∧ p.N = lastNum p₀.N (valuesOf "n" o) ∧
      p.R = lastNum p₀.R (valuesOf "r" o) ∧ p.DKLen = lastNum p₀.DKLen (valuesOf "dkLen" o) := by
  induction o with
  | nil =>
    intro p₀ p
    obtain ⟨a, b, c, d⟩ := p₀
    obtain ⟨a', b', c', d'⟩ := p
    simp [unmarshalScryptInto, valuesOf, lastNum]
    tauto
  | cons e o ih =>
    intro p₀ p
    obtain ⟨m0, m1, m2, m3⟩ := scrypt_member e.1
    simp only [valuesOf_cons, m0, m1, m2, m3, List.forall_mem_cons, List.not_mem_nil, false_imp_iff, implies_true,
      and_true] at ih ⊢
    rw [unmarshalScryptInto, setScrypt]
    have hv : isInt e.2 = true ∨ isInt e.2 = false := by cases isInt e.2 <;> simp
    rcases hf : fieldOf scryptNames e.1 with _ | i
    · simp [Res.bind, ih]
    · match i with
      | 0 | 1 | 2 | 3 =>
        rcases hv with hv | hv
        · obtain ⟨r, h1, h2⟩ := (setInt_iff p₀.P e.2 (valuesOf "p" o)).1 hv
          obtain ⟨r', h1', h2'⟩ := (setInt_iff p₀.N e.2 (valuesOf "n" o)).1 hv
          obtain ⟨r'', h1'', h2''⟩ := (setInt_iff p₀.R e.2 (valuesOf "r" o)).1 hv
          obtain ⟨r3, h13, h23⟩ := (setInt_iff p₀.DKLen e.2 (valuesOf "dkLen" o)).1 hv
          simp [h1, h2, h1', h2', h1'', h2'', h13, h23, Res.map, Res.bind, ih, hv]
        · obtain ⟨r, h1⟩ := (setInt_iff p₀.P e.2 []).2 hv
          obtain ⟨r', h1'⟩ := (setInt_iff p₀.N e.2 []).2 hv
          obtain ⟨r'', h1''⟩ := (setInt_iff p₀.R e.2 []).2 hv
          obtain ⟨r3, h13⟩ := (setInt_iff p₀.DKLen e.2 []).2 hv
          simp [h1, h1', h1'', h13, Res.map, Res.bind, hv]
      | i + 4 => simp [Res.bind, ih]

/-- **C107** (reading) Scrypt parameters as other programs may write them: reading an object succeeds exactly when
all its values for the names p, n, r and dkLen are numbers or null, and each parameter is then the last number given
for its name, or 0 if there is none. The case of the letters, the order of the members and members with other names do
not matter. -/
theorem C107_scrypt_read (o : JObj) (p : ScryptParam) :
    unmarshalScrypt o = .ok p ↔
      (∀ nm ∈ ["p", "n", "r", "dkLen"], ∀ v ∈ valuesOf nm o, isInt v = true) ∧
      p.P = lastNum 0 (valuesOf "p" o) ∧ p.N = lastNum 0 (valuesOf "n" o) ∧
      p.R = lastNum 0 (valuesOf "r" o) ∧ p.DKLen = lastNum 0 (valuesOf "dkLen" o) :=
  scrypt_read_into o ⟨0, 0, 0, 0⟩ p

theorem prot_member (nm : Bytes) :
    (sameMember (ascii "address") nm = true ↔ fieldOf protNames nm = some 0) ∧
    (sameMember (ascii "enc-alg") nm = true ↔ fieldOf protNames nm = some 1) ∧
    (sameMember (ascii "key") nm = true ↔ fieldOf protNames nm = some 2) ∧
    (sameMember (ascii "algorithm") nm = true ↔ fieldOf protNames nm = some 3) ∧
    (sameMember (ascii "salt") nm = true ↔ fieldOf protNames nm = some 4) ∧
    (sameMember (ascii "hash") nm = true ↔ fieldOf protNames nm = some 5) ∧
    (sameMember (ascii "parameters") nm = true ↔ fieldOf protNames nm = some 6) := by
  simp only [fieldOf_iff _ protNames_nodup]
  refine ⟨?_, ?_, ?_, ?_, ?_, ?_, ?_⟩ <;> exact ⟨fun h => ⟨by decide, h⟩, fun ⟨_, h⟩ => h⟩

/-- What a list of values makes of a string: all must be strings or null, and the last string counts. -/
def StrFrom (old : Bytes) : List JVal → Bytes → Prop
  | [], r => r = old
  | .str s :: l, r => StrFrom s l r
  | .null :: l, r => StrFrom old l r
  | _, _ => False

/-- What a list of values makes of a byte slice: all must be base64 strings or null, and the last one counts. -/
def BytesFrom (old : Option Bytes) : List JVal → Option Bytes → Prop
  | [], r => r = old
  | .str s :: l, r => ∃ b, b64dec s = some b ∧ BytesFrom (some b) l r
  | .null :: l, r => BytesFrom none l r
  | _, _ => False

/-- What a list of values makes of a map: all must be objects or null; null clears the map, the entries of an object
are put into it. -/
def MapFrom (old : Option (List (Bytes × Bytes))) : List JVal → Option (List (Bytes × Bytes)) → Prop
  | [], r => r = old
  | .obj m :: l, r => MapFrom (some (m.foldl putEntry (old.getD []))) l r
  | .null :: l, r => MapFrom none l r
  | _, _ => False

theorem prot_read_into (o : JObj) : ∀ p₀ p : Prot, unmarshalInto p₀ o = .ok p ↔
      StrFrom p₀.address (valuesOf "address" o) p.address ∧ StrFrom p₀.encAlg (valuesOf "enc-alg" o) p.encAlg ∧
      BytesFrom p₀.key (valuesOf "key" o) p.key ∧ StrFrom p₀.alg (valuesOf "algorithm" o) p.alg ∧
      BytesFrom p₀.salt (valuesOf "salt" o) p.salt ∧ StrFrom p₀.hash (valuesOf "hash" o) p.hash ∧
      MapFrom p₀.param (valuesOf "parameters" o) p.param := by
  induction o with
  | nil =>
    intro p₀ p
    obtain ⟨a, b, c, d, e, f, g⟩ := p₀
    obtain ⟨a', b', c', d', e', f', g'⟩ := p
    simp [unmarshalInto, valuesOf, StrFrom, BytesFrom, MapFrom]
    tauto
  | cons e o ih =>
    intro p₀ p
    obtain ⟨m0, m1, m2, m3, m4, m5, m6⟩ := prot_member e.1
    simp only [valuesOf_cons, m0, m1, m2, m3, m4, m5, m6] at ih ⊢
    rw [unmarshalInto, setMember]
    obtain ⟨nm, v⟩ := e
    dsimp only
    rcases hf : fieldOf protNames nm with _ | i
    · simp [Res.bind, ih]
    · match i with
      | 0 | 1 | 3 | 5 => cases v <;> simp [setStr, Res.map, Res.bind, ih, StrFrom]
      | 2 | 4 =>
        cases v with
        | str s => cases hb : b64dec s <;> simp [setBytes, Res.map, Res.bind, ih, BytesFrom, hb]
        | _ => simp [setBytes, Res.map, Res.bind, ih, BytesFrom]
      | 6 => cases v <;> simp [setMap, Res.map, Res.bind, ih, MapFrom]
      | i + 7 => simp [Res.bind, ih]

/-- **C107** (reading) Protected keys as other programs may write them: reading an object succeeds exactly when the
values for each name have the right kind, and each field is then made from the values for its name alone. The case of
the letters, the order of the members and members with other names do not matter, and fields that are not named are
empty. -/
theorem C107_read (o : JObj) (p : Prot) : unmarshal o = .ok p ↔
      StrFrom [] (valuesOf "address" o) p.address ∧ StrFrom [] (valuesOf "enc-alg" o) p.encAlg ∧
      BytesFrom none (valuesOf "key" o) p.key ∧ StrFrom [] (valuesOf "algorithm" o) p.alg ∧
      BytesFrom none (valuesOf "salt" o) p.salt ∧ StrFrom [] (valuesOf "hash" o) p.hash ∧
      MapFrom none (valuesOf "parameters" o) p.param :=
  prot_read_into o .zero p

/-- The value that a map, as a list of entries, has for a key. -/
def entryOf (k : Bytes) (m : List (Bytes × Bytes)) : Option Bytes := (m.find? fun x => x.1 == k).map Prod.snd

/-- The entries of the objects after the last null. -/
def entriesOf : List (Bytes × Bytes) → List JVal → List (Bytes × Bytes)
  | acc, [] => acc
  | acc, .obj m :: l => entriesOf (acc ++ m) l
  | _, .null :: l => entriesOf [] l
  | acc, _ :: l => entriesOf acc l

theorem putEntry_keys (m : List (Bytes × Bytes)) (e : Bytes × Bytes) :
    (putEntry m e).map Prod.fst = if e.1 ∈ m.map Prod.fst then m.map Prod.fst else m.map Prod.fst ++ [e.1] := by
  unfold putEntry
  have hiff : (m.any fun x => x.1 == e.1) = true ↔ e.1 ∈ m.map Prod.fst := by
    simp only [List.any_eq_true, beq_iff_eq, List.mem_map]
  by_cases h : e.1 ∈ m.map Prod.fst
  · rw [if_pos (hiff.2 h), if_pos h, List.map_map]
    apply List.map_congr_left
    intro x _
    simp only [Function.comp_apply]
    split
    · rename_i hx; exact (beq_iff_eq.1 hx).symm
    · rfl
  · rw [if_neg (fun h' => h (hiff.1 h')), if_neg h, List.map_append]
    rfl

theorem entryOf_map (m : List (Bytes × Bytes)) (e : Bytes × Bytes) (k : Bytes) :
    entryOf k (m.map fun x => if x.1 == e.1 then e else x) =
      if k = e.1 then (if e.1 ∈ m.map Prod.fst then some e.2 else none) else entryOf k m := by
  induction m with
  | nil => by_cases hk : k = e.1 <;> simp [entryOf, hk]
  | cons x m ih =>
    simp only [entryOf, List.map_cons, List.find?_cons] at ih ⊢
    by_cases hx : x.1 = e.1
    · by_cases hk : k = e.1
      · simp [hx, hk]
      · have hk' : (e.1 == k) = false := by simpa using fun h => hk h.symm
        simp only [hx, beq_self_eq_true, if_true, hk', if_neg hk] at ih ⊢
        exact ih
    · have hx' : (x.1 == e.1) = false := by simpa using hx
      by_cases hk : k = e.1
      · have hxk : (x.1 == k) = false := by rw [hk]; exact hx'
        simp only [hx', hxk, Bool.false_eq_true, if_false, if_pos hk, List.mem_cons, Ne.symm hx, false_or] at ih ⊢
        exact ih
      · simp only [hx', Bool.false_eq_true, if_false, if_neg hk] at ih ⊢
        cases x.1 == k
        · exact ih
        · rfl

theorem putEntry_entry (m : List (Bytes × Bytes)) (e : Bytes × Bytes) (k : Bytes) :
    entryOf k (putEntry m e) = if k = e.1 then some e.2 else entryOf k m := by
  have hiff : (m.any fun x => x.1 == e.1) = true ↔ e.1 ∈ m.map Prod.fst := by
    simp only [List.any_eq_true, beq_iff_eq, List.mem_map]
  unfold putEntry
  by_cases h : e.1 ∈ m.map Prod.fst
  · rw [if_pos (hiff.2 h), entryOf_map, if_pos h]
  · rw [if_neg (fun h' => h (hiff.1 h'))]
    unfold entryOf
    rw [List.find?_append]
    by_cases hk : k = e.1
    · have : m.find? (fun x => x.1 == k) = none := by
        rw [List.find?_eq_none]
        intro x hx hxk
        exact h (List.mem_map.2 ⟨x, hx, by rw [← hk]; exact beq_iff_eq.1 hxk⟩)
      rw [this]
      simp [hk]
    · have hk' : (e.1 == k) = false := by simpa using fun h => hk h.symm
      simp [hk, hk']

theorem foldl_putEntry (acc m : List (Bytes × Bytes)) (l : List (Bytes × Bytes))
    (hn : (m.map Prod.fst).Nodup) (hm : ∀ k, entryOf k m = entryOf k acc.reverse) :
    ((l.foldl putEntry m).map Prod.fst).Nodup ∧ ∀ k, entryOf k (l.foldl putEntry m) = entryOf k (acc ++ l).reverse := by
  induction l generalizing acc m with
  | nil => simpa using ⟨hn, hm⟩
  | cons e l ih =>
    have h := ih (acc ++ [e]) (putEntry m e) ?_ ?_
    · simpa using h
    · rw [putEntry_keys]
      split
      · exact hn
      · rename_i hx
        rw [List.nodup_append]
        refine ⟨hn, by simp, fun a ha b hb => ?_⟩
        rintro rfl
        exact hx (List.mem_singleton.1 hb ▸ ha)
    · intro k
      rw [putEntry_entry, hm k]
      by_cases hk : k = e.1
      · simp [entryOf, hk]
      · have hk' : (e.1 == k) = false := by simpa using fun h => hk h.symm
        simp [entryOf, hk, hk']

theorem mapFrom_entries (acc : List (Bytes × Bytes)) (l : List JVal) : ∀ old r : Option (List (Bytes × Bytes)),
    ((old.getD []).map Prod.fst).Nodup → (∀ k, entryOf k (old.getD []) = entryOf k acc.reverse) → MapFrom old l r →
    ((r.getD []).map Prod.fst).Nodup ∧ ∀ k, entryOf k (r.getD []) = entryOf k (entriesOf acc l).reverse := by
  induction l generalizing acc with
  | nil =>
    intro old r h1 h2 h3
    rw [show r = old from h3]
    exact ⟨h1, h2⟩
  | cons v l ih =>
    intro old r h1 h2 h3
    cases v with
    | obj m =>
      obtain ⟨a, b⟩ := foldl_putEntry acc (old.getD []) m h1 h2
      exact ih (acc ++ m) (some (m.foldl putEntry (old.getD []))) r a b h3
    | null => exact ih [] none r (by simp) (by simp) h3
    | _ => exact h3.elim

/-- **C107** (reading) The parameters that were read: no key occurs twice, and each key has the value that was given
for it last (after the last null). -/
theorem C107_parameters (o : JObj) (p : Prot) (h : unmarshal o = .ok p) :
    ((p.param.getD []).map Prod.fst).Nodup ∧
    ∀ k, entryOf k (p.param.getD []) = entryOf k (entriesOf [] (valuesOf "parameters" o)).reverse :=
  mapFrom_entries [] _ none _ (by simp) (by simp) ((C107_read o p).1 h).2.2.2.2.2.2

/-! ## Cases that meet the hypotheses -/

/-- A key that is given twice, in two objects with different spellings of the name. -/
example : (unmarshal [(ascii "parameters", .obj [(ascii "curve", ascii "P-256"), (ascii "x", [])]),
    (ascii "PARAMETERS", .obj [(ascii "y", []), (ascii "curve", ascii "P-384")])]).map (fun p => p.param) =
    .ok (some [(ascii "curve", ascii "P-384"), (ascii "x", []), (ascii "y", [])]) := by decide +kernel

/-- Members in another order and case, with one that is unknown and one given twice. -/
example : unmarshalScrypt [(ascii "DKLEN", .num 64), (ascii "x", .other), (ascii "N", .num 5), (ascii "n", .num 16384)]
    = .ok ⟨0, 16384, 0, 64⟩ := by decide +kernel

example : (unmarshal [(ascii "Salt", .str (ascii "//4=")), (ascii "ENC-ALG", .null), (ascii "kex", .other)]).map
    (fun p => (p.salt, p.key, p.encAlg)) = .ok (some [255, 254], none, []) := by decide +kernel

/-- "Ädresse 1" in UTF-8; a lone continuation byte is not. -/
example : UTF8.Valid [0xC3, 0x84, 0x64, 0x72, 0x65, 0x73, 0x73, 0x65, 0x20, 0x31] ∧ ¬ UTF8.Valid [0x41, 0x80] := by
  rw [← fixUTF8_eq_iff, ← fixUTF8_eq_iff]
  decide +kernel

/-- The key in the test data of the repository, keypair/encrypt_test.go:35-43, in small. -/
example : marshal (ofProtected ⟨ascii "TM1", "aes-256-gcm", [1, 2, 3, 4], "ECDSA", [255, 254], "P-256"⟩) =
    [(ascii "address", .str (ascii "TM1")), (ascii "enc-alg", .str (ascii "aes-256-gcm")),
      (ascii "key", .str (ascii "AQIDBA==")), (ascii "algorithm", .str (ascii "ECDSA")),
      (ascii "salt", .str (ascii "//4=")),
      (ascii "parameters", .obj [(ascii "curve", ascii "P-256")])] := by decide +kernel

example : TextFields (ofProtected ⟨ascii "TM1", "aes-256-gcm", [1, 2, 3, 4], "ECDSA", [255, 254], "P-256"⟩) := by
  unfold TextFields
  simp only [← fixUTF8_eq_iff]
  decide +kernel

example : ∃ d, kdf refProt' [1, 2, 3] (zeros 16) getScryptParameters = .ok d ∧ (zeros 16).length = 16 := ⟨_, rfl, rfl⟩

end Verif.Props
