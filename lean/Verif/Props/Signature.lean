import Verif.Lemmas.RefSig
import Verif.Lemmas.Signature
/-!
# Properties of package signature (C30-C37, C59, C60, C71, C72)
-/
namespace Verif.Props
open Verif Verif.Spec Verif.Keypair Verif.Signature
open Verif.Spec.ECDSA (Accepts bits2int)

/-! ## C32 -/

/-- **C32** `Deserialize` returns a signature exactly for the byte strings in the documented format, and
that signature; for every other byte string it returns an error; it never panics. -/
theorem C32_deserialize_format (h : Heap) (buf : Slice) (hv : buf.Valid h) :
    (∀ s, Format s (buf.read h) ↔
      ∃ h' s', deserialize h buf = .ok (h', s') ∧ (s'.map (bufOf h')).essence = s) ∧
    ((∃ h' s', deserialize h buf = .ok (h', s')) ∨ ∃ m, deserialize h buf = .err m) := by
  obtain ⟨h1, h2, h3, h4⟩ := deserialize_parse hv
  constructor
  · intro s
    rw [← parse_iff]
    constructor
    · intro hp
      cases hd : deserialize h buf with
      | panic m => exact absurd hd (h2 m)
      | err m => rw [(h1 m).1 hd] at hp; cases hp
      | ok r =>
        obtain ⟨h', s'⟩ := r
        have := (h4 h' s' hd).1
        rw [hp] at this
        exact ⟨h', s', rfl, (Res.ok.inj this).symm⟩
    · rintro ⟨h', s', hd, rfl⟩
      exact (h4 h' s' hd).1
  · cases hd : deserialize h buf with
    | panic m => exact absurd hd (h2 m)
    | err m => exact Or.inr ⟨m, rfl⟩
    | ok r => exact Or.inl ⟨r.1, r.2, rfl⟩

/-- A byte string determines its signature. -/
theorem C32_format_unique (b : Bytes) (s t : Sig Bytes) (hs : Format s b) (ht : Format t b) : s = t := by
  rw [← parse_iff] at hs ht
  rw [hs] at ht
  exact Res.ok.inj ht

/-! ## C30 -/

theorem Signed_lt {c : Curve} {a : Int} [Fact c.P.Prime] (hN : 0 < c.N) {G : Pt c a} {d e r s : Nat}
    (h : ECDSA.Signed G d e r s) : r < c.N ∧ s < c.N := by
  obtain ⟨k, _, _, hr, _, _, hs, _⟩ := h
  exact ⟨hr ▸ Nat.mod_lt _ hN, hs⟩

theorem curve_k1_of_name {k1name : String} (hk : GoodName k1name) {c : Curve} (hc : c ∈ Curves.all k1name)
    (hn : c.name = k1name) : c = Curves.secp256k1 k1name := by
  simp only [Curves.all, List.mem_cons, List.not_mem_nil, or_false] at hc
  rcases hc with rfl | rfl | rfl | rfl | rfl | rfl
  case inr.inr.inr.inr.inl => rfl
  all_goals (rcases hk with rfl | rfl <;> exact absurd hn (by decide))

theorem ethPair_of_ec {k1name : String} (hk : GoodName k1name) {priv : ECPriv} (hp : ECPair k1name priv)
    (hn : priv.pub.curve.name = k1name) : EthPair priv := by
  obtain ⟨hc, hp⟩ := hp
  have hc' := curve_k1_of_name hk hc hn
  have ha : curveA k1name priv.pub.curve = 0 := if_pos hn
  rw [ha] at hp
  refine ⟨k1name, ?_⟩
  rw [hc'] at hp
  exact hp

theorem sm2Pair_of_ec {k1name : String} (hk : GoodName k1name) {priv : ECPriv} (hp : ECPair k1name priv)
    (hc : priv.pub.curve = Curves.sm2) (G : SM2.Point) (hG : xy G = (Curves.sm2.Gx, Curves.sm2.Gy)) :
    SM2Pair G priv := by
  obtain ⟨-, hp⟩ := hp
  have ha : curveA k1name priv.pub.curve = -3 := by
    unfold curveA; rw [if_neg]; rw [hc]; rcases hk with rfl | rfl <;> decide
  rw [ha, hc] at hp
  haveI := good_sm2.fact
  exact ⟨hc, hp.2.1, hp.2.2 G hG⟩

/-- **C30** (partial) Every signature `Sign` returns serializes, to a byte string from which `Deserialize`
gets the same signature back (scheme, numbers, bytes and user id), wherever in memory that byte string is;
for SM2 user ids without a zero byte. Missing: ids with a zero byte, for which it is false
(`C30_nul_id_lost`). -/
theorem C30_roundtrip_partial (E : Signature.Ext) (hE : E.Lawful) (fuel : Nat) (rand : Bytes)
    (scheme : Scheme) (pri : PrivateKey) (hv : ValidKey E pri) (msg : Bytes) (opt : Opt) (sig : Sig Buf)
    (hs : sign E fuel rand scheme pri msg opt = some (.ok sig))
    (hid : ∀ id, opt = .str id → scheme = 9 → (0 : Byte) ∉ id) :
    ∃ b, serialize (some sig) = .ok b ∧ ∀ h buf, buf.Valid h → buf.read h = b →
      ∃ h' s', deserialize h buf = .ok (h', s') ∧ (s'.map (bufOf h')).essence = sig.essence := by
  suffices hf : ∃ b, serialize (some sig) = .ok b ∧ Format sig.essence b by
    obtain ⟨b, hb, hf⟩ := hf
    refine ⟨b, hb, fun h buf hv hr => ?_⟩
    exact ((C32_deserialize_format h buf hv).1 _).1 (hr ▸ hf)
  rcases sign_ok_cases hs with ⟨alg, priv, r, s, rfl, rfl, hsm, rfl⟩ |
    ⟨alg, priv, a, b, rfl, hle, ha, hn, hc, rfl⟩ | ⟨alg, priv, a, r, s, rfl, hle, ha, -, hec, rfl⟩ |
    ⟨key, rfl, rfl, hl, rfl⟩ | ⟨priv, b, rfl, rfl, he, rfl⟩
  · have hv : ECPair E.k1name priv := hv
    obtain ⟨mz, hz, hcrv, -⟩ := SM2.sign_ok hsm
    haveI := good_sm2.fact
    obtain ⟨G, hG⟩ := good_sm2.exists_G
    obtain ⟨h1, h2, h3, h4, -⟩ := C40_sign_values E.sm2 hE.sm2 SM2.sm3Sum G hG priv fuel rand (optID opt) msg r s hsm
    have hb := byteSize_bound hv.1
    have hN : priv.pub.curve.N = Curves.sm2.N := by rw [hcrv]
    have hid' : (0 : Byte) ∉ optID opt := by
      cases opt with
      | str id => exact hid id rfl rfl
      | _ => exact List.not_mem_nil
    have h62 : priv.pub.curve.byteSize = 32 := by rw [hcrv]; rfl
    exact serialize_sm2_format priv.pub.curve r s (optID opt) hid' (by omega)
      (lt_of_lt_of_le (by rw [hN]; exact h2) hb.1) (lt_of_lt_of_le (by rw [hN]; exact h4) hb.1)
  · obtain ⟨hl, -⟩ := hE.compact priv _ b (ethPair_of_ec hE.k1name hv hn) hc
    exact ⟨_, serialize_bytes scheme b [] (by omega), Format.compact scheme hle b hl⟩
  · have hv : ECPair E.k1name priv := hv
    have hg := good_of_mem E.k1name hE.k1name _ hv.1
    haveI := hg.fact
    obtain ⟨G, hG⟩ := hg.exists_G
    obtain ⟨hr, hs⟩ := Signed_lt hg.order_prime.pos (hE.ecdsa_sign priv _ _ r s hv hec G hG)
    have hb := byteSize_bound hv.1
    exact serialize_dsa_format scheme hle _ hb.2 r s (lt_of_lt_of_le hr hb.1) (lt_of_lt_of_le hs hb.1)
  · have hl := hE.ed_sig key msg
    exact ⟨_, serialize_bytes 10 _ [] (by simp), Format.raw 10 (Or.inl rfl) _ (by rw [hl]; decide) (by rw [hl]; decide)⟩
  · obtain ⟨-, hl, -⟩ := hE.eth_sign priv _ b hv he
    exact ⟨_, serialize_bytes 11 _ [] (by simp), Format.raw 11 (Or.inr rfl) b (by rw [hl]; decide) (by rw [hl]; decide)⟩

/-- **C30** A user id with a zero byte never survives: whatever `Deserialize` makes of the serialized
signature, it is not the same signature. -/
theorem C30_nul_id_lost (sig : Sig Buf) (r s : Int) (c : Option Curve) (id : Bytes)
    (hval : sig.value = .sm2 r s c id) (hid : (0 : Byte) ∈ id) (h : Heap) (buf : Slice) (hv : buf.Valid h)
    (h' : Heap) (s' : Sig Slice) (hd : deserialize h buf = .ok (h', s')) :
    (s'.map (bufOf h')).essence ≠ sig.essence := by
  intro he
  have hf := ((C32_deserialize_format h buf hv).1 _).2 ⟨h', s', hd, he⟩
  have hsig : sig.essence = ⟨sig.scheme, .sm2 r s none id⟩ := by unfold Sig.essence; rw [hval]
  rw [hsig] at hf
  generalize buf.read h = b at hf
  generalize hx : (⟨sig.scheme, .sm2 r s none id⟩ : Sig Bytes) = x at hf
  cases hf <;> simp only [Sig.mk.injEq, reduceCtorEq, and_false, Value.sm2.injEq] at hx
  obtain ⟨-, -, -, -, rfl⟩ := hx
  contradiction

/-! ## C31 -/

/-- **C31** (partial) A deserialized signature of the byte-string kind serializes to exactly the bytes it
came from. Missing: the other kinds, on which `Serialize` panics (`C31_dsa_panics`). -/
theorem C31_reserialize_partial (h : Heap) (buf : Slice) (hv : buf.Valid h) (h' : Heap) (s' : Sig Slice)
    (hd : deserialize h buf = .ok (h', s')) (t : Slice) (ht : s'.value = .bytes t) :
    serialize (some (s'.map (bufOf h'))) = .ok (buf.read h) := by
  have hf := ((C32_deserialize_format h buf hv).1 _).2 ⟨h', s', hd, rfl⟩
  obtain ⟨sch, v⟩ := s'
  simp only at ht
  subst ht
  generalize hx : ((⟨sch, .bytes t⟩ : Sig Slice).map (bufOf h')).essence = x at hf
  have hx' : (⟨sch, .bytes (bufOf h' t).data⟩ : Sig Bytes) = x := hx
  have goal : ∀ d, (bufOf h' t).data = d → ¬ (sch = 1 ∧ d.length = 64) →
      serialize (some ((⟨sch, .bytes t⟩ : Sig Slice).map (bufOf h'))) = .ok (sch :: d) := by
    intro d hd hn
    have := serialize_bytes sch (bufOf h' t).data (bufOf h' t).spare (by rw [hd]; exact hn)
    rw [← hd]; exact this
  generalize buf.read h = b at hf
  cases hf with
  | bare => simp at hx'
  | dsa => simp at hx'
  | sm2 => simp at hx'
  | compact sch' hsch b hl =>
    simp only [Sig.mk.injEq, Value.bytes.injEq] at hx'
    obtain ⟨rfl, hx'⟩ := hx'
    exact goal b hx' (by omega)
  | raw sch' hsch b h0 hl =>
    simp only [Sig.mk.injEq, Value.bytes.injEq] at hx'
    obtain ⟨rfl, hx'⟩ := hx'
    refine goal b hx' ?_
    rintro ⟨rfl, -⟩
    revert hsch; decide

/-- `Deserialize` never fills in the curve. -/
theorem deserialize_no_curve {h : Heap} {buf : Slice} {h' : Heap} {s' : Sig Slice}
    (hd : deserialize h buf = .ok (h', s')) :
    (∀ r s c, s'.value = .dsa r s c → c = none) ∧ (∀ r s c id, s'.value = .sm2 r s c id → c = none) := by
  unfold deserialize at hd
  simp only at hd
  generalize (if buf.len = 64 then buf else buf.sub 1 buf.len) = data at hd
  generalize (if buf.len = 64 then SHA256withECDSA else (buf.read h).getD 0 0) = scheme at hd
  split_ifs at hd
  · obtain ⟨rfl, rfl⟩ := Prod.mk.inj (Res.ok.inj hd)
    exact ⟨fun _ _ _ e => by simp at e, fun _ _ _ _ e => by simp at e⟩
  · cases hx : deserializeDSA (data.read h) with
    | ok rs =>
      rw [hx] at hd
      obtain ⟨rfl, rfl⟩ := Prod.mk.inj (Res.ok.inj hd)
      exact ⟨fun _ _ _ e => by simp at e; exact e.2.2.symm, fun _ _ _ _ e => by simp at e⟩
    | err m => rw [hx] at hd; cases hd
    | panic m => rw [hx] at hd; cases hd
  · cases hx : deserializeDSA ((data.read h).drop (zeroIndex (data.read h) + 1)) with
    | ok rs =>
      rw [hx] at hd
      obtain ⟨rfl, rfl⟩ := Prod.mk.inj (Res.ok.inj hd)
      exact ⟨fun _ _ _ e => by simp at e, fun _ _ _ _ e => by simp at e; exact e.2.2.1.symm⟩
    | err m => rw [hx] at hd; cases hd
    | panic m => rw [hx] at hd; cases hd
  · obtain ⟨rfl, rfl⟩ := Prod.mk.inj (Res.ok.inj hd)
    exact ⟨fun _ _ _ e => by simp at e, fun _ _ _ _ e => by simp at e⟩

/-- **C31** Serializing a deserialized signature that consists of numbers always panics (the curve object
is missing). -/
theorem C31_dsa_panics (h : Heap) (buf : Slice) (hv : buf.Valid h) (h' : Heap) (s' : Sig Slice)
    (hd : deserialize h buf = .ok (h', s')) (ht : ∀ t, s'.value ≠ .bytes t) :
    ∃ m, serialize (some (s'.map (bufOf h'))) = .panic m := by
  have hf := ((C32_deserialize_format h buf hv).1 _).2 ⟨h', s', hd, rfl⟩
  obtain ⟨hnone, hnone2⟩ := deserialize_no_curve hd
  obtain ⟨sch, v⟩ := s'
  unfold serialize serializeValue Sig.map
  generalize hx : ((⟨sch, v⟩ : Sig Slice).map (bufOf h')).essence = x at hf
  generalize buf.read h = b at hf
  cases v with
  | bytes t => exact absurd rfl (ht t)
  | other => cases hf <;> simp [Sig.map, Value.map, Sig.essence] at hx
  | dsa r s c =>
    have hc := hnone r s c rfl
    subst hc
    have hsch : sch.toNat ≤ 8 := by
      cases hf <;> simp only [Sig.map, Value.map, Sig.essence, Sig.mk.injEq, reduceCtorEq, and_false] at hx
      · rw [hx.1]; decide
      · rw [hx.1]; assumption
    simp only [Value.map, (isECDSA_iff sch).2 hsch, Bool.not_true, Bool.false_eq_true, if_false,
      serializeDSA, Res.map]
    exact ⟨_, rfl⟩
  | sm2 r s c id =>
    have hc := hnone2 r s c id rfl
    subst hc
    have hsch : ¬ sch ≠ SM3withSM2 := by
      cases hf <;> simp only [Sig.map, Value.map, Sig.essence, Sig.mk.injEq, reduceCtorEq, and_false] at hx
      rw [hx.1]; decide
    simp only [Value.map, if_neg hsch, serializeDSA, Res.map]
    exact ⟨_, rfl⟩

/-! ## C33 -/

/-- **C33** (partial) What `Sign` returns, `Verify` accepts under the public key of the signer: for every
valid key, scheme, message, option and random input, except the empty message and except Ethereum keys
signing a 32-byte message with the hash option. Missing: these two cases, in which it is false (C59,
C60). -/
theorem C33_sign_verify_partial (E : Signature.Ext) (hE : E.Lawful) (fuel : Nat) (rand : Bytes)
    (scheme : Scheme) (pri : PrivateKey) (hv : ValidKey E pri) (msg : Bytes) (opt : Opt) (sig : Sig Buf)
    (hs : sign E fuel rand scheme pri msg opt = some (.ok sig)) (hm : msg ≠ [])
    (h32 : ¬ ((∃ p, pri = .eth p) ∧ opt = .bool true ∧ msg.length = 32)) :
    verify E pri.matching msg (some sig) = .ok true := by
  have hm0 : ¬ msg.length = 0 := fun e => hm (List.eq_nil_of_length_eq_zero e)
  rcases sign_ok_cases hs with ⟨alg, priv, r, s, rfl, rfl, hsm, rfl⟩ |
    ⟨alg, priv, a, b, rfl, hle, ha, hn, hc, rfl⟩ | ⟨alg, priv, a, r, s, rfl, hle, ha, -, hec, rfl⟩ |
    ⟨key, rfl, rfl, hl, rfl⟩ | ⟨priv, b, rfl, rfl, he, rfl⟩
  · have hv : ECPair E.k1name priv := hv
    obtain ⟨mz, hz, hcrv, -⟩ := SM2.sign_ok hsm
    haveI := good_sm2.fact
    obtain ⟨G, hG⟩ := good_sm2.exists_G
    have := C38_sign_verify E.sm2 hE.sm2 SM2.sm3Sum G hG priv (sm2Pair_of_ec hE.k1name hv hcrv G hG)
      fuel rand (optID opt) msg r s hsm
    unfold verify PrivateKey.matching
    simp only
    rw [if_neg hm0]
    have h9 : hashOf 9 = some .sm3 := rfl
    have i9 : ¬ isECDSA 9 = true := by decide
    simp only [h9, if_neg i9, hash_sm3]
    rw [if_pos True.intro, this]
  · have hv : ECPair E.k1name priv := hv
    obtain ⟨-, hrec⟩ := hE.compact priv _ b (ethPair_of_ec hE.k1name hv hn) hc
    unfold verify PrivateKey.matching
    simp only
    rw [if_neg hm0]
    simp only [ha, if_pos ((isECDSA_iff scheme).2 hle), secp256k1Verify, hrec]
    simp
  · have hv : ECPair E.k1name priv := hv
    have hg := good_of_mem E.k1name hE.k1name _ hv.1
    haveI := hg.fact
    obtain ⟨G, hG⟩ := hg.exists_G
    have hsd := hE.ecdsa_sign priv _ _ r s hv hec G hG
    have hacc := hsd.accepts hg hG
    obtain ⟨-, hD, hpub⟩ := hv.2
    have hQ : priv.D • G ≠ 0 := by rw [Ne, hg.smul_eq_zero_iff (hg.G_ne_zero hG)]; exact hD
    have := (hE.ecdsa_verify priv.pub (E.hash a msg) r s hv.1 G _ hG hQ (hpub G hG).symm).2 hacc
    unfold verify PrivateKey.matching
    simp only
    rw [if_neg hm0]
    simp only [ha, if_pos ((isECDSA_iff scheme).2 hle), this]
  · obtain ⟨seed, hseed, hkey⟩ := hv
    have hpk : key.drop 32 = E.edPublic seed := by rw [hkey, List.drop_left' hseed]
    have hlen := hE.ed_public seed
    unfold verify PrivateKey.matching
    simp only
    rw [if_neg hm0]
    have h10 : hashOf 10 = some .sha512 := rfl
    simp only [h10]
    rw [if_pos True.intro]
    unfold edVerify
    rw [hpk, if_neg (by omega), hkey, hE.ed seed msg hseed]
  · have hv : EthPair priv := hv
    obtain ⟨hdl, hbl, hsd⟩ := hE.eth_sign priv _ b hv he
    have hg : GoodCurve k1 0 := good_k1 ""
    haveI := hg.fact
    obtain ⟨G, hG⟩ := hg.exists_G
    obtain ⟨hD, hpub⟩ := ethPair_k1 hv G hG
    have hQ : priv.D • G ≠ 0 := by rw [Ne, hg.smul_eq_zero_iff (hg.G_ne_zero hG)]; exact hD
    obtain ⟨hsd, hlow⟩ := hsd G hG
    have hacc := hsd.accepts hg hG
    -- the digest that is verified
    have hdig : (if msg.length ≠ 32 then E.extHash .keccak256 msg else msg) =
        if opt = .bool true then E.extHash .keccak256 msg else msg := by
      by_cases ho : opt = .bool true
      · rw [if_pos ho, if_pos (fun e => h32 ⟨⟨priv, rfl⟩, ho, e⟩)]
      · rw [if_neg ho] at hdl ⊢
        rw [if_neg (by omega)]
    rw [← hdig] at hdl hacc
    have hr : rOf (b.take 64) = rOf b := by unfold rOf; rw [List.take_take]; rfl
    have hss : sOf (b.take 64) = sOf b := by
      unfold sOf; rw [List.drop_take, List.take_take]; rfl
    have hver := (hE.eth_verify priv.pub _ (b.take 64) hdl (by rw [List.length_take]; omega) G _ hG hQ
      hpub.symm).2 (by rw [hr, hss]; exact ⟨hacc, hlow⟩)
    unfold verify PrivateKey.matching
    simp only
    rw [if_neg hm0]
    have h11 : hashOf 11 = some .keccak256 := rfl
    have h11' : ¬ ((11 : Scheme) ≠ KECCAK256WithECDSA) := by decide
    simp only [h11, if_neg h11']
    unfold verifyEth
    simp only [List.append_nil, show hashOf KECCAK256WithECDSA = some .keccak256 from rfl, hash_keccak]
    rw [if_neg (by omega)]
    split_ifs with c
    · rw [if_pos c] at hver; rw [hver]
    · rw [if_neg c] at hver; rw [hver]

/-! ## C71 -/

/-- **C71** Sign, serialize, transmit, deserialize, verify: the verifier's answer is `true` (under the
conditions of C33 and C30). -/
theorem C71_transported_partial (E : Signature.Ext) (hE : E.Lawful) (fuel : Nat) (rand : Bytes)
    (scheme : Scheme) (pri : PrivateKey) (hv : ValidKey E pri) (msg : Bytes) (opt : Opt) (sig : Sig Buf)
    (hs : sign E fuel rand scheme pri msg opt = some (.ok sig)) (hm : msg ≠ [])
    (h32 : ¬ ((∃ p, pri = .eth p) ∧ opt = .bool true ∧ msg.length = 32))
    (hid : ∀ id, opt = .str id → scheme = 9 → (0 : Byte) ∉ id) :
    ∃ b, serialize (some sig) = .ok b ∧ ∀ h buf, buf.Valid h → buf.read h = b →
      ∃ h' s', deserialize h buf = .ok (h', s') ∧
        verify E pri.matching msg (some (s'.map (bufOf h'))) = .ok true := by
  obtain ⟨b, hb, hrt⟩ := C30_roundtrip_partial E hE fuel rand scheme pri hv msg opt sig hs hid
  refine ⟨b, hb, fun h buf hvd hr => ?_⟩
  obtain ⟨h', s', hd, he⟩ := hrt h buf hvd hr
  refine ⟨h', s', hd, ?_⟩
  rw [← C33_sign_verify_partial E hE fuel rand scheme pri hv msg opt sig hs hm h32]
  refine (verify_essence E pri.matching msg he.symm ?_).symm
  intro bb hsch hval
  rcases sign_ok_cases hs with ⟨alg, priv, r, s, rfl, rfl, hsm, rfl⟩ |
    ⟨alg, priv, a, b, rfl, hle, ha, hn, hc, rfl⟩ | ⟨alg, priv, a, r, s, rfl, hle, ha, -, hec, rfl⟩ |
    ⟨key, rfl, rfl, hl, rfl⟩ | ⟨priv, b, rfl, rfl, hsg, rfl⟩
  · cases hval
  · rw [show scheme = 11 from hsch] at hle; exact absurd hle (by decide)
  · cases hval
  · simp at hsch
  · obtain ⟨-, hbl, -⟩ := hE.eth_sign priv _ b hv hsg
    simp only [Value.bytes.injEq] at hval
    rw [← hval]; simp only; omega

/-! ## C34 -/

/-- **C34** A key that does not go with the scheme: `Verify` returns `false` for every message and value,
and `Sign` returns an error. -/
theorem C34_mismatch (E : Signature.Ext) :
    (∀ (pub : PublicKey) (sig : Sig Buf) (msg : Bytes), ¬ Compatible pub sig.scheme →
      verify E pub msg (some sig) = .ok false) ∧
    (∀ (pri : PrivateKey) (scheme : Scheme) (fuel : Nat) (rand msg : Bytes) (opt : Opt),
      ¬ Compatible pri.matching scheme →
      ∃ m, sign E fuel rand scheme pri msg opt = some (.err m)) := by
  constructor
  · rintro pub ⟨sch, v⟩ msg hc
    unfold verify
    simp only
    by_cases hm : msg.length = 0
    · rw [if_pos hm]
    rw [if_neg hm]
    cases hh : hashOf sch with
    | none => rfl
    | some a =>
      simp only
      cases pub with
      | ec alg key =>
        simp only [Compatible, not_or, not_and] at hc
        simp only
        rw [if_neg (by rw [isECDSA_iff]; exact hc.1)]
        split_ifs with h9
        · have hcrv := hc.2 h9
          cases v with
          | sm2 r s c id =>
            simp only
            have := (C39_other_curve E.sm2 (E.hash a) ⟨0, key⟩ hcrv 0 [] id msg r s).1
            rw [show (⟨0, key⟩ : ECPriv).pub = key from rfl] at this
            rw [this]
          | _ => rfl
        · rfl
      | ed key =>
        simp only [Compatible] at hc
        simp only
        rw [if_neg hc]
      | eth key =>
        simp only [Compatible] at hc
        simp only
        rw [if_pos hc]
      | unknown => rfl
  · intro pri scheme fuel rand msg opt hc
    unfold sign
    cases pri with
    | ec alg priv =>
      simp only [Compatible, PrivateKey.matching, not_or, not_and] at hc
      simp only
      cases hh : hashOf scheme with
      | none => exact ⟨_, rfl⟩
      | some a =>
        simp only
        split_ifs with h9 hec
        · obtain ⟨m, hm⟩ := (C39_other_curve E.sm2 (E.hash a) priv (hc.2 h9) fuel rand (optID opt) msg 0 0).2
          rw [hm]
          exact ⟨m, rfl⟩
        · exact absurd ((isECDSA_iff scheme).1 hec) hc.1
        · exact ⟨_, rfl⟩
    | ed key =>
      simp only [Compatible, PrivateKey.matching] at hc
      simp only
      rw [if_pos hc]; exact ⟨_, rfl⟩
    | eth priv =>
      simp only [Compatible, PrivateKey.matching] at hc
      simp only
      rw [if_pos hc]; exact ⟨_, rfl⟩
    | unknown => exact ⟨_, rfl⟩

/-! ## C35 -/

/-- **C35** Exactly when `Verify` panics on a signature obtained from `Deserialize`: for an Ethereum key
and an Ethereum signature of fewer than 64 bytes; for an Ed25519 key that does not have 32 bytes; or when
btcec panics on a compact signature. In all other cases it returns a boolean. -/
theorem C35_panics_iff (E : Signature.Ext) (pub : PublicKey) (msg : Bytes) (h : Heap) (buf : Slice)
    (hv : buf.Valid h) (h' : Heap) (s' : Sig Slice) (hd : deserialize h buf = .ok (h', s')) :
    (∃ m, verify E pub msg (some (s'.map (bufOf h'))) = .panic m) ↔
      msg ≠ [] ∧
      ((∃ k, pub = .eth k ∧ (buf.read h).head? = some 11 ∧ buf.len < 65 ∧ buf.len ≠ 64) ∨
       (∃ k, pub = .ed k ∧ k.length ≠ 32 ∧ (buf.read h).head? = some 10 ∧ buf.len ≠ 64) ∨
       (∃ alg k a m, pub = .ec alg k ∧ hashOf s'.scheme = some a ∧ s'.scheme.toNat ≤ 8 ∧ buf.len = 66 ∧
          E.recoverCompact ((buf.read h).drop 1) (E.hash a msg) = .panic m)) := by
  have hf := ((C32_deserialize_format h buf hv).1 _).2 ⟨h', s', hd, rfl⟩
  obtain ⟨-, -, -, h4⟩ := deserialize_parse hv
  obtain ⟨-, hcases⟩ := h4 h' s' hd
  have hlen := read_length hv
  have hl2 : ¬ buf.len < 2 := by
    intro hc; unfold deserialize at hd; rw [if_pos hc] at hd; cases hd
  have hshort : buf.len ≠ 64 → (buf.read h).head? = some s'.scheme := by
    intro hne
    have hscheme : s'.scheme = ((s'.map (bufOf h')).essence).scheme := rfl
    rw [hscheme]
    generalize (s'.map (bufOf h')).essence = x at hf
    rw [← hlen] at hne
    generalize buf.read h = b at hf hne
    cases hf with
    | bare rb sb hr hs => simp [hr, hs] at hne
    | _ => rfl
  unfold verify
  simp only
  by_cases hm : msg = []
  · simp [hm]
  have hm0 : ¬ msg.length = 0 := fun e => hm (List.eq_nil_of_length_eq_zero e)
  rw [if_neg hm0]
  have hsch : (s'.map (bufOf h')).scheme = s'.scheme := rfl
  rw [hsch]
  simp only [hm, ne_eq, not_false_eq_true, true_and]
  rcases hcases with ⟨hle, rfl, hbytes⟩ | ⟨h9, rfl, hnb⟩ | ⟨h1011, rfl, hne, hval⟩
  · obtain ⟨a, ha⟩ := hashOf_of_le (s := s'.scheme) (by omega)
    have hne10 : s'.scheme ≠ 10 := by intro e; rw [e] at hle; revert hle; decide
    have hne11 : s'.scheme ≠ 11 := by intro e; rw [e] at hle; revert hle; decide
    simp only [ha, if_pos ((isECDSA_iff _).2 hle)]
    have no11 : ¬ ((buf.read h').head? = some 11 ∧ buf.len < 65 ∧ buf.len ≠ 64) := by
      rintro ⟨e1, -, e2⟩
      rw [hshort e2] at e1
      exact hne11 (Option.some.inj e1)
    have no10 : ¬ ((buf.read h').head? = some 10 ∧ buf.len ≠ 64) := by
      rintro ⟨e1, e2⟩
      rw [hshort e2] at e1
      exact hne10 (Option.some.inj e1)
    cases pub with
    | ec alg k =>
      simp only [reduceCtorEq, false_and, exists_false, false_or]
      cases hvv : s'.value with
      | dsa r s c =>
        have : (s'.map (bufOf h')).value = .dsa r s c := by unfold Sig.map; simp only [hvv]; rfl
        simp only [this, reduceCtorEq, exists_false, false_iff]
        rintro ⟨alg', k', a', m, -, -, -, h66, -⟩
        have hf' := hf
        have hx : (s'.map (bufOf h')).essence = ⟨s'.scheme, .dsa r s none⟩ := by
          unfold Sig.essence; rw [this]; rfl
        rw [hx] at hf'
        rw [h66] at hlen
        generalize hy : (⟨s'.scheme, .dsa r s none⟩ : Sig Bytes) = y at hf'
        generalize buf.read h' = b at hf' hlen
        cases hf' with
        | bare rb sb hr hs => simp [hr, hs] at hlen
        | dsa _ _ rb sb hl h0 => simp only [List.length_cons, List.length_append] at hlen; omega
        | compact => simp at hy
        | sm2 => simp at hy
        | raw => simp at hy
      | sm2 r s c id =>
        have : (s'.map (bufOf h')).value = .sm2 r s c id := by unfold Sig.map; simp only [hvv]; rfl
        simp only [this, reduceCtorEq, exists_false, false_iff]
        have hx : (s'.map (bufOf h')).essence = ⟨s'.scheme, .sm2 r s none id⟩ := by
          unfold Sig.essence; rw [this]; rfl
        rw [hx] at hf
        exfalso
        generalize hy : (⟨s'.scheme, .sm2 r s none id⟩ : Sig Bytes) = y at hf
        generalize buf.read h' = b at hf
        cases hf <;> simp only [Sig.mk.injEq, reduceCtorEq, and_false] at hy
        rw [hy.1] at hle; revert hle; decide
      | other =>
        exfalso
        have : (s'.map (bufOf h')).value = .other := by unfold Sig.map; simp only [hvv]; rfl
        have hx : (s'.map (bufOf h')).essence = ⟨s'.scheme, .other⟩ := by
          unfold Sig.essence; rw [this]; rfl
        rw [hx] at hf
        generalize hy : (⟨s'.scheme, .other⟩ : Sig Bytes) = y at hf
        generalize buf.read h' = b at hf
        cases hf <;> simp at hy
      | bytes t =>
        obtain ⟨rfl, h66⟩ := hbytes t hvv
        have : (s'.map (bufOf h')).value = .bytes (bufOf h' (buf.sub 1 buf.len)) := by
          unfold Sig.map; simp only [hvv]; rfl
        simp only [this]
        have hdd : (bufOf h' (buf.sub 1 buf.len)).data = (buf.read h').drop 1 := sub_read h' buf 1
        rw [hdd]
        unfold secp256k1Verify
        constructor
        · rintro ⟨m, hm'⟩
          cases hrc : E.recoverCompact ((buf.read h').drop 1) (E.hash a msg) with
          | ok q => rw [hrc] at hm'; cases hm'
          | err m' => rw [hrc] at hm'; cases hm'
          | panic m' => exact ⟨alg, k, a, m', rfl, rfl, hle, h66, hrc⟩
        · rintro ⟨_, _, a', m', he, ha', -, -, hrc⟩
          rw [← Option.some.inj ha'] at hrc
          rw [hrc]; exact ⟨m', rfl⟩
    | ed k =>
      simp only
      rw [if_neg hne10]
      simp only [reduceCtorEq, exists_false, false_iff, false_and, or_false, false_or]
      rintro ⟨_, _, _, e1, e2⟩
      exact no10 ⟨e1, e2⟩
    | eth k =>
      simp only
      rw [if_pos hne11]
      simp only [reduceCtorEq, exists_false, false_iff, false_and, or_false]
      rintro ⟨_, _, e⟩
      exact no11 e
    | unknown => simp
  · have hsv : s'.scheme = 9 := by apply BitVec.eq_of_toNat_eq; rw [h9]; rfl
    have hread : (buf.read h').head? ≠ some 11 ∨ buf.len = 64 := by
      by_cases e : buf.len = 64
      · exact Or.inr e
      · left; rw [hshort e, hsv]; decide
    have hread2 : (buf.read h').head? ≠ some 10 ∨ buf.len = 64 := by
      by_cases e : buf.len = 64
      · exact Or.inr e
      · left; rw [hshort e, hsv]; decide
    have h8 : ¬ s'.scheme.toNat ≤ 8 := by omega
    have hh9 : hashOf s'.scheme = some .sm3 := by rw [hsv]; rfl
    have hi9 : ¬ isECDSA s'.scheme = true := by rw [isECDSA_iff]; exact h8
    simp only [hh9, if_neg hi9]
    have rhs : ¬ ((∃ k, pub = .eth k ∧ (buf.read h').head? = some 11 ∧ buf.len < 65 ∧ ¬ buf.len = 64) ∨
       (∃ k, pub = .ed k ∧ ¬ k.length = 32 ∧ (buf.read h').head? = some 10 ∧ ¬ buf.len = 64) ∨
       (∃ alg k a m, pub = .ec alg k ∧ some HashAlg.sm3 = some a ∧ s'.scheme.toNat ≤ 8 ∧ buf.len = 66 ∧
          E.recoverCompact ((buf.read h').drop 1) (E.hash a msg) = .panic m)) := by
      rintro (⟨_, _, e1, _, e2⟩ | ⟨_, _, _, e1, e2⟩ | ⟨_, _, _, _, _, _, e, _⟩)
      · rcases hread with e | e
        · exact e e1
        · exact e2 e
      · rcases hread2 with e | e
        · exact e e1
        · exact e2 e
      · exact h8 e
    refine ⟨?_, fun hx => absurd hx rhs⟩
    rintro ⟨m, hx⟩
    exfalso
    cases pub with
    | ec alg k =>
      simp only at hx
      rw [if_pos hsv] at hx
      revert hx
      cases (s'.map (bufOf h')).value <;> simp
    | ed k => simp only at hx; rw [if_neg (by rw [hsv]; decide)] at hx; cases hx
    | eth k => simp only at hx; rw [if_pos (by rw [hsv]; decide)] at hx; cases hx
    | unknown => cases hx
  · have hval' : (s'.map (bufOf (h.alloc ((buf.read h).drop 1)).1)).value = .bytes ⟨(buf.read h).drop 1, []⟩ := by
      unfold Sig.map; simp only [hval, Value.map, alloc_bufOf]
    have h8 : ¬ s'.scheme.toNat ≤ 8 := by rcases h1011 with e | e <;> rw [e] <;> decide
    have hhd := hshort hne
    have hi : ¬ isECDSA s'.scheme = true := by rw [isECDSA_iff]; exact h8
    obtain ⟨a, ha⟩ := hashOf_of_le (s := s'.scheme) (by rcases h1011 with e | e <;> rw [e] <;> decide)
    simp only [ha, if_neg hi, hval', hhd, Option.some.injEq]
    have hdl : ((buf.read h).drop 1).length = buf.len - 1 := by rw [List.length_drop, hlen]
    cases pub with
    | ec alg k =>
      simp only
      rw [if_neg (by rcases h1011 with e | e <;> rw [e] <;> decide)]
      simp [h8]
    | ed k =>
      simp only [reduceCtorEq, false_and, exists_false, false_or, or_false]
      by_cases e10 : s'.scheme = 10
      · rw [if_pos e10]
        unfold edVerify
        by_cases hk : k.length = 32
        · rw [if_neg (by omega)]; simp [hk]
        · rw [if_pos hk]; simp [hk, e10, hne]
      · rw [if_neg e10]
        exact ⟨fun ⟨_, e⟩ => (nomatch e), fun ⟨_, _, _, e, _⟩ => absurd e e10⟩
    | eth k =>
      simp only [reduceCtorEq, false_and, exists_false, or_false]
      by_cases e11 : s'.scheme = 11
      · rw [if_neg (by rw [e11]; decide)]
        unfold verifyEth
        simp only [List.append_nil, hdl]
        by_cases hk : buf.len - 1 < 64
        · rw [if_pos hk]
          simp only [Res.panic.injEq, exists_eq', true_iff]
          exact ⟨k, rfl, e11, by omega, hne⟩
        · rw [if_neg hk]
          constructor
          · rintro ⟨m, hx⟩
            exfalso; revert hx
            rw [show hashOf KECCAK256WithECDSA = some .keccak256 from rfl]
            split_ifs <;> simp
          · rintro ⟨_, _, _, e, _⟩
            omega
      · rw [if_pos e11]
        exact ⟨fun ⟨_, e⟩ => (nomatch e), fun ⟨_, _, e, _⟩ => absurd e e11⟩
    | unknown => simp

/-- **C35** (partial) `Verify` returns a boolean, on every signature that `Deserialize` returns, when
Ed25519 keys have 32 bytes and Ethereum signatures at least 64, and btcec does not panic. -/
theorem C35_no_panic_partial (E : Signature.Ext) (pub : PublicKey) (msg : Bytes) (h : Heap) (buf : Slice)
    (hv : buf.Valid h) (h' : Heap) (s' : Sig Slice) (hd : deserialize h buf = .ok (h', s'))
    (hlen : ∀ k, pub = .eth k → 64 ≤ buf.len) (hed : ∀ k, pub = .ed k → k.length = 32)
    (hbt : ∀ sig dig m, E.recoverCompact sig dig ≠ .panic m) :
    ∃ b, verify E pub msg (some (s'.map (bufOf h'))) = .ok b := by
  have hp := C35_panics_iff E pub msg h buf hv h' s' hd
  cases hr : verify E pub msg (some (s'.map (bufOf h'))) with
  | ok b => exact ⟨b, rfl⟩
  | err m =>
    exfalso
    unfold verify at hr
    simp only at hr
    revert hr
    unfold secp256k1Verify edVerify verifyEth
    generalize (s'.map (bufOf h')).value = v
    generalize (s'.map (bufOf h')).scheme = sch
    cases hashOf sch <;> cases pub <;> cases v <;>
      simp only [show hashOf KECCAK256WithECDSA = some HashAlg.keccak256 from rfl] <;>
      repeat' split
    all_goals simp
  | panic m =>
    exfalso
    rcases (hp.1 ⟨m, hr⟩).2 with ⟨k, rfl, -, h1, h2⟩ | ⟨k, rfl, h1, -⟩ | ⟨_, _, _, m', _, _, _, _, h1⟩
    · have := hlen k rfl; omega
    · exact h1 (hed k rfl)
    · exact hbt _ _ _ h1

/-- **C35** The claim without these conditions is false: with an Ethereum key every byte string of 2 to 63
bytes that begins with `0b` deserializes to a signature on which `Verify` panics. -/
theorem C35_short_eth_panics (E : Signature.Ext) (k : ECPub) (msg : Bytes) (hm : msg ≠ []) (h : Heap)
    (buf : Slice) (hv : buf.Valid h) (b : Bytes) (hb : buf.read h = 11 :: b) (h0 : b ≠ [])
    (hlt : b.length < 63) :
    ∃ h' s', deserialize h buf = .ok (h', s') ∧
      ∃ m, verify E (.eth k) msg (some (s'.map (bufOf h'))) = .panic m := by
  have hl := read_length hv
  rw [hb, List.length_cons] at hl
  have hf : Format ⟨11, .bytes b⟩ (buf.read h) := by
    rw [hb]
    exact Format.raw 11 (Or.inr rfl) b (fun e => h0 (List.eq_nil_of_length_eq_zero e)) (by omega)
  obtain ⟨h', s', hd, -⟩ := ((C32_deserialize_format h buf hv).1 _).1 hf
  refine ⟨h', s', hd, ?_⟩
  exact (C35_panics_iff E (.eth k) msg h buf hv _ _ hd).2
    ⟨hm, Or.inl ⟨k, rfl, by rw [hb]; rfl, by omega, by omega⟩⟩

/-! ## C36 -/

theorem foldNames_nodup : (names.map fun n => n.toList.map foldChar).Nodup := by decide +kernel

theorem getSchemeFrom_spec (n : String) : ∀ (l : List String) (i : Nat), i + l.length ≤ 256 →
    (l.map fun n => n.toList.map foldChar).Nodup → ∀ s : Scheme,
    (getSchemeFrom n i l = some s ↔ ∃ j, l[j]?.any (fun v => equalFold v n) = true ∧ s.toNat = i + j)
  | [], i, _, _, s => by simp [getSchemeFrom]
  | v :: vs, i, hi, hnd, s => by
    simp only [List.map_cons, List.nodup_cons] at hnd
    simp only [List.length_cons] at hi
    unfold getSchemeFrom
    by_cases hv : equalFold v n = true
    · rw [if_pos hv]
      constructor
      · intro e
        rw [← Option.some.inj e]
        exact ⟨0, by simpa using hv, by simp; omega⟩
      · rintro ⟨j, hj, hs⟩
        cases j with
        | zero =>
          congr 1
          apply BitVec.eq_of_toNat_eq
          rw [hs]; simp; omega
        | succ j =>
          exfalso
          simp only [List.getElem?_cons_succ] at hj
          cases hw : vs[j]? with
          | none => rw [hw] at hj; simp at hj
          | some w =>
            rw [hw] at hj
            simp only [Option.any_some] at hj
            unfold equalFold at hv hj
            rw [beq_iff_eq] at hv hj
            exact hnd.1 (List.mem_map.2 ⟨w, List.mem_of_getElem? hw, by rw [hj, hv]⟩)
    · rw [if_neg hv, getSchemeFrom_spec n vs (i + 1) (by omega) hnd.2 s]
      constructor
      · rintro ⟨j, hj, hs⟩
        exact ⟨j + 1, by simpa using hj, by omega⟩
      · rintro ⟨j, hj, hs⟩
        cases j with
        | zero => simp at hj; exact absurd hj hv
        | succ j => exact ⟨j, by simpa using hj, by omega⟩

theorem name_ok (s : Scheme) (v : String) : name s = .ok v ↔ names[s.toNat]? = some v := by
  unfold name
  by_cases h : s.toNat < names.length
  · rw [if_neg (by omega), List.getD_eq_getElem?_getD, List.getElem?_eq_getElem h, Option.getD_some]
    simp only [Res.ok.injEq, Option.some.injEq]
  · rw [if_pos (Nat.le_of_not_lt h), List.getElem?_eq_none (Nat.le_of_not_lt h)]
    exact ⟨fun e => (nomatch e), fun e => (nomatch e)⟩

/-- **C36** `GetScheme` returns the scheme whose name the string equals up to case folding, and an error
when there is none. -/
theorem getScheme_iff (n : String) (s : Scheme) :
    getScheme n = .ok s ↔ ∃ v, name s = .ok v ∧ equalFold v n = true := by
  have hg : getScheme n = .ok s ↔ getSchemeFrom n 0 names = some s := by
    unfold getScheme
    cases getSchemeFrom n 0 names <;> simp
  rw [hg, getSchemeFrom_spec n names 0 (by decide) foldNames_nodup s]
  constructor
  · rintro ⟨j, hj, hs⟩
    rw [Nat.zero_add] at hs
    cases hw : names[j]? with
    | none => rw [hw] at hj; simp at hj
    | some w => rw [hw] at hj; exact ⟨w, (name_ok s w).2 (hs ▸ hw), by simpa using hj⟩
  · rintro ⟨v, hv, hf⟩
    rw [name_ok] at hv
    exact ⟨s.toNat, by rw [hv]; simpa using hf, by omega⟩

/-- ASCII lower case. -/
def lowerASCII (s : String) : List Char := s.toList.map Char.toLower

theorem foldChar_ascii : ∀ n : Fin 128, foldChar (Char.ofNat n) = (Char.ofNat n).toLower := by
  decide +kernel

theorem fold_lower (s : String) (hs : ∀ c ∈ s.toList, c.toNat < 128) :
    s.toList.map foldChar = lowerASCII s := by
  unfold lowerASCII
  apply List.map_congr_left
  intro c hc
  have := foldChar_ascii ⟨c.toNat, hs c hc⟩
  simpa using this

theorem names_ascii : ∀ v ∈ names, ∀ c ∈ v.toList, c.toNat < 128 := by decide +kernel

/-- **C36** (partial) `Name` and `GetScheme` are inverse: the name of each of the 12 schemes yields that
scheme; a string of ASCII characters yields a scheme exactly if it is that scheme's name in some upper and
lower case spelling, and otherwise an error. Missing: non-ASCII strings, for which "otherwise an error" is
false (`C36_non_ascii_accepted`). -/
theorem C36_names_partial :
    (∀ s : Scheme, s.toNat < 12 → ∃ v, name s = .ok v ∧ getScheme v = .ok s) ∧
    ∀ n : String, (∀ c ∈ n.toList, c.toNat < 128) →
      (∀ s, getScheme n = .ok s ↔ ∃ v, name s = .ok v ∧ lowerASCII v = lowerASCII n) ∧
      ((∀ s v, name s = .ok v → lowerASCII v ≠ lowerASCII n) → ∃ m, getScheme n = .err m) := by
  have key : ∀ n : String, (∀ c ∈ n.toList, c.toNat < 128) →
      ∀ s, getScheme n = .ok s ↔ ∃ v, name s = .ok v ∧ lowerASCII v = lowerASCII n := by
    intro n hn s
    rw [getScheme_iff]
    refine exists_congr fun v => and_congr_right fun hv => ?_
    have hm : v ∈ names := List.mem_of_getElem? ((name_ok s v).1 hv)
    rw [← fold_lower n hn, ← fold_lower v (names_ascii v hm)]
    unfold equalFold
    rw [beq_iff_eq]
  refine ⟨fun s hs => ?_, fun n hn => ⟨key n hn, fun hno => ?_⟩⟩
  · obtain ⟨v, hv⟩ : ∃ v, names[s.toNat]? = some v :=
      ⟨_, List.getElem?_eq_getElem (show s.toNat < names.length from hs)⟩
    refine ⟨v, (name_ok s v).2 hv, ?_⟩
    exact (key v (names_ascii v (List.mem_of_getElem? hv)) s).2 ⟨v, (name_ok s v).2 hv, rfl⟩
  · cases hg : getScheme n with
    | ok s =>
      obtain ⟨v, hv, he⟩ := (key n hn s).1 hg
      exact absurd he (hno s v hv)
    | err m => exact ⟨m, rfl⟩
    | panic m => unfold getScheme at hg; revert hg; cases getSchemeFrom n 0 names <;> simp

/-- **C36** A string that is no spelling of a name in ASCII letters but is accepted: the long s (U+017F). -/
theorem C36_non_ascii_accepted :
    getScheme "\u017fHA256withECDSA" = .ok 1 ∧
      ∀ s v, name s = .ok v → lowerASCII v ≠ lowerASCII "\u017fHA256withECDSA" := by
  refine ⟨by decide +kernel, fun s v hv => ?_⟩
  have hm : v ∈ names := List.mem_of_getElem? ((name_ok s v).1 hv)
  have : ∀ v ∈ names, lowerASCII v ≠ lowerASCII "\u017fHA256withECDSA" := by decide +kernel
  exact this v hm

/-! ## C37 -/

theorem splice_splice (m x y : Bytes) (off : Nat) (h : off + x.length + y.length ≤ m.length) :
    splice (splice m off x) (off + x.length) y = splice m off (x ++ y) := by
  apply List.ext_getElem?
  intro i
  rw [getElem?_splice _ _ _ (by rw [splice_length _ _ _ (by omega)]; omega),
    getElem?_splice _ _ _ (by omega), getElem?_splice _ _ _ (by rw [List.length_append]; omega),
    List.length_append, List.getElem?_append]
  split_ifs <;> first | rfl | omega | (congr 1; omega)

theorem convert_store (h : Heap) (t : Slice) (hv : t.Valid h) (hl : t.len = 65) (v : Byte) (rs : Bytes)
    (hr : t.read h = v :: rs) :
    (h.store t.arr t.off ((t.read h).drop 1)).store t.arr (t.off + 64) [(t.read h).getD 0 0 - 27] =
      h.store t.arr t.off (rs ++ [v - 27]) := by
  have hlen := read_length hv
  rw [hr, List.length_cons] at hlen
  have hrs : rs.length = 64 := by omega
  obtain ⟨-, h1, h2⟩ := hv
  rw [hr]
  simp only [List.drop_succ_cons, List.drop_zero, List.getD_cons_zero, Heap.store]
  congr 1
  funext i
  by_cases hi : i = t.arr
  · subst hi
    simp only [if_true]
    rw [← splice_splice _ _ _ _ (by simp only [List.length_singleton]; omega), hrs]
  · simp only [if_neg hi]

theorem sub_valid {h : Heap} {buf : Slice} (hv : buf.Valid h) (hl : 1 ≤ buf.len) :
    (buf.sub 1 buf.len).Valid h := by
  obtain ⟨h0, h1, h2⟩ := hv
  exact ⟨h0, by simp only [Slice.sub]; omega, by simp only [Slice.sub]; omega⟩

/-- What the conversion does when the scheme byte is an ECDSA scheme. -/
theorem convert_ecdsa (h : Heap) (buf : Slice) (hv : buf.Valid h) (b0 v : Byte) (rs : Bytes)
    (hl : rs.length = 64) (hb : buf.read h = b0 :: v :: rs) (h0 : b0.toNat ≤ 8) :
    convertToEthCompatible h buf =
      .ok (h.store buf.arr (buf.off + 1) (rs ++ [v - 27]), buf.sub 1 buf.len) := by
  have hlen := read_length hv
  rw [hb, List.length_cons, List.length_cons] at hlen
  have hf : Format ⟨b0, .bytes (v :: rs)⟩ (buf.read h) := by
    rw [hb]; exact Format.compact b0 h0 _ (by simp [hl])
  obtain ⟨h', s', hd, he⟩ := ((C32_deserialize_format h buf hv).1 _).1 hf
  obtain ⟨-, -, -, h4⟩ := deserialize_parse hv
  have hsch : s'.scheme = b0 := congrArg Sig.scheme he
  obtain ⟨t, ht⟩ : ∃ t, s'.value = .bytes t := by
    cases hval : s'.value with
    | bytes t => exact ⟨t, rfl⟩
    | _ =>
      exfalso
      have := congrArg Sig.value he
      unfold Sig.map Sig.essence at this
      simp [hval, Value.map] at this
  rcases (h4 h' s' hd).2 with ⟨-, rfl, hbytes⟩ | ⟨h9, -⟩ | ⟨h1011, -⟩
  · obtain ⟨rfl, h66⟩ := hbytes t ht
    have hr : (buf.sub 1 buf.len).read h' = v :: rs := by rw [sub_read, hb]; rfl
    have hlt : (buf.sub 1 buf.len).len = 65 := by simp only [Slice.sub]; omega
    unfold convertToEthCompatible
    rw [hd]
    simp only [ht, hlt, ne_eq, not_true_eq_false, if_false]
    rw [convert_store h' _ (sub_valid hv (by omega)) hlt v rs hr]
    rfl
  · rw [hsch] at h9; omega
  · rw [hsch] at h1011; exfalso; revert h0; rcases h1011 with rfl | rfl <;> decide

/-- What the conversion does when the scheme byte is 10 or 11. -/
theorem convert_raw (h : Heap) (buf : Slice) (hv : buf.Valid h) (b0 v : Byte) (rs : Bytes)
    (hl : rs.length = 64) (hb : buf.read h = b0 :: v :: rs) (h0 : b0 = 10 ∨ b0 = 11) :
    convertToEthCompatible h buf =
      .ok ((h.alloc (v :: rs)).1.store h.next 0 (rs ++ [v - 27]), ⟨h.next, 0, 65, 65⟩) := by
  have hlen := read_length hv
  rw [hb, List.length_cons, List.length_cons] at hlen
  have hf : Format ⟨b0, .bytes (v :: rs)⟩ (buf.read h) := by
    rw [hb]; exact Format.raw b0 h0 _ (by simp) (by simp [hl])
  obtain ⟨h', s', hd, he⟩ := ((C32_deserialize_format h buf hv).1 _).1 hf
  obtain ⟨-, -, -, h4⟩ := deserialize_parse hv
  have hsch : s'.scheme = b0 := congrArg Sig.scheme he
  rcases (h4 h' s' hd).2 with ⟨h8, -⟩ | ⟨h9, -⟩ | ⟨-, rfl, -, hval⟩
  · rw [hsch] at h8; exfalso; revert h8; rcases h0 with rfl | rfl <;> decide
  · rw [hsch] at h9; exfalso; revert h9; rcases h0 with rfl | rfl <;> decide
  · rw [hb, List.drop_succ_cons, List.drop_zero] at hval hd
    have hal : (h.alloc (v :: rs)).2 = ⟨h.next, 0, 65, 65⟩ := by simp [Heap.alloc, hl]
    rw [hal] at hval
    have hr : Slice.read (h.alloc (v :: rs)).1 ⟨h.next, 0, 65, 65⟩ = v :: rs := by
      rw [← hal]; exact alloc_read h _
    have hvt : Slice.Valid (h.alloc (v :: rs)).1 ⟨h.next, 0, 65, 65⟩ := by
      refine ⟨by simp [Heap.alloc], le_refl _, by simp [Heap.alloc, hl]⟩
    have := convert_store _ _ hvt rfl v rs hr
    simp only at this
    unfold convertToEthCompatible
    rw [hd]
    simp only [hval, ne_eq, not_true_eq_false, if_false]
    rw [this]

/-- **C37** `ConvertToEthCompatible` succeeds exactly on 66-byte strings whose first byte is an ECDSA
scheme, 10 or 11; then it returns the last 64 bytes followed by the second byte minus 27. Otherwise it
returns an error; it never panics. -/
theorem C37_convert (h : Heap) (buf : Slice) (hv : buf.Valid h) :
    (∀ (b0 v : Byte) (rs : Bytes), rs.length = 64 → buf.read h = b0 :: v :: rs →
        (b0.toNat ≤ 8 ∨ b0 = 10 ∨ b0 = 11) →
        ∃ h' t, convertToEthCompatible h buf = .ok (h', t) ∧ t.read h' = rs ++ [v - 27]) ∧
    ((¬ ∃ (b0 v : Byte) (rs : Bytes), rs.length = 64 ∧ buf.read h = b0 :: v :: rs ∧
        (b0.toNat ≤ 8 ∨ b0 = 10 ∨ b0 = 11)) → ∃ m, convertToEthCompatible h buf = .err m) := by
  have hlen := read_length hv
  constructor
  · intro b0 v rs hl hb h0
    have hcap := hv.2.2
    have hcl := hv.2.1
    rw [hb, List.length_cons, List.length_cons] at hlen
    rcases h0 with h0 | h0
    · refine ⟨_, _, convert_ecdsa h buf hv b0 v rs hl hb h0, ?_⟩
      have := read_store_self h buf.arr (buf.off + 1) (rs ++ [v - 27]) (buf.cap - 1)
        (by simp only [List.length_append, List.length_singleton]; omega)
      rw [show buf.sub 1 buf.len = ⟨buf.arr, buf.off + 1, (rs ++ [v - 27]).length, buf.cap - 1⟩ by
        simp only [Slice.sub, List.length_append, List.length_singleton, Slice.mk.injEq, true_and, and_true]
        omega]
      exact this
    · refine ⟨_, _, convert_raw h buf hv b0 v rs hl hb h0, ?_⟩
      have := read_store_self (h.alloc (v :: rs)).1 h.next 0 (rs ++ [v - 27]) 65
        (by simp [Heap.alloc])
      rw [show (rs ++ [v - 27]).length = 65 by simp [hl]] at this
      exact this
  · intro hno
    obtain ⟨h1, h2, -, h4⟩ := deserialize_parse hv
    cases hd : deserialize h buf with
    | err m => exact ⟨m, by unfold convertToEthCompatible; rw [hd]⟩
    | panic m => exact absurd hd (h2 m)
    | ok r =>
      obtain ⟨h', s'⟩ := r
      unfold convertToEthCompatible
      rw [hd]
      simp only
      have hf := ((C32_deserialize_format h buf hv).1 _).2 ⟨h', s', hd, rfl⟩
      cases hval : s'.value with
      | dsa r s c => exact ⟨_, rfl⟩
      | sm2 r s c id => exact ⟨_, rfl⟩
      | other => exact ⟨_, rfl⟩
      | bytes t =>
        simp only
        split_ifs with h65
        · exact ⟨_, rfl⟩
        · exfalso
          have he : (s'.map (bufOf h')).essence = ⟨s'.scheme, .bytes (t.read h')⟩ := by
            unfold Sig.map Sig.essence; simp only [hval]; rfl
          rw [he] at hf
          have htl : (t.read h').length = 65 := by
            rcases (h4 h' s' hd).2 with ⟨-, rfl, hbytes⟩ | ⟨-, -, hn⟩ | ⟨-, rfl, -, hv'⟩
            · obtain ⟨rfl, h66⟩ := hbytes t hval
              rw [sub_read, List.length_drop]; omega
            · exact absurd hval (hn t)
            · rw [hval] at hv'
              have hx : t = (h.alloc ((buf.read h).drop 1)).2 := Value.bytes.inj hv'
              rw [hx, alloc_read]
              rw [hx] at h65
              have : (h.alloc ((buf.read h).drop 1)).2.len = ((buf.read h).drop 1).length := rfl
              omega
          apply hno
          generalize hy : (⟨s'.scheme, .bytes (t.read h')⟩ : Sig Bytes) = y at hf
          generalize buf.read h = b at hf
          cases hf with
          | bare => simp at hy
          | dsa => simp at hy
          | sm2 => simp at hy
          | compact sch hsch b hb =>
            obtain ⟨v, rs, rfl⟩ := List.exists_cons_of_ne_nil (l := b) (by rintro rfl; simp at hb)
            exact ⟨sch, v, rs, by simpa using hb, rfl, Or.inl hsch⟩
          | raw sch hsch b h0 _ =>
            obtain ⟨v, rs, rfl⟩ := List.exists_cons_of_ne_nil (l := b) (by rintro rfl; simp at h0)
            simp only [Sig.mk.injEq, Value.bytes.injEq] at hy
            rw [hy.2] at htl
            exact ⟨sch, v, rs, by simpa using htl, rfl, Or.inr hsch⟩

/-- **C37** (partial: the input is unchanged) For schemes 10 and 11 the input keeps its bytes. Missing: the
ECDSA schemes, for which it is overwritten (`C37_input_overwritten`). -/
theorem C37_input_kept_partial (h : Heap) (buf : Slice) (hv : buf.Valid h)
    (hb : (buf.read h).head? = some 10 ∨ (buf.read h).head? = some 11) (h' : Heap) (t : Slice)
    (hc : convertToEthCompatible h buf = .ok (h', t)) : buf.read h' = buf.read h := by
  have : ∃ (b0 v : Byte) (rs : Bytes), rs.length = 64 ∧ buf.read h = b0 :: v :: rs ∧
        (b0.toNat ≤ 8 ∨ b0 = 10 ∨ b0 = 11) := by
    by_contra hno
    obtain ⟨m, hm⟩ := (C37_convert h buf hv).2 hno
    rw [hm] at hc; cases hc
  obtain ⟨b0, v, rs, hl, hbr, -⟩ := this
  have h0 : b0 = 10 ∨ b0 = 11 := by simpa [hbr] using hb
  rw [convert_raw h buf hv b0 v rs hl hbr h0] at hc
  rw [← (Prod.mk.inj (Res.ok.inj hc)).1]
  have hne : buf.arr ≠ h.next := by have := hv.1; omega
  unfold Slice.read
  rw [store_mem_ne _ _ _ _ _ hne]
  simp [Heap.alloc, hne]

/-- **C37** For the ECDSA schemes the bytes of the input are overwritten: afterwards they are the first
byte followed by the result. -/
theorem C37_input_overwritten (h : Heap) (buf : Slice) (hv : buf.Valid h) (b0 v : Byte) (rs : Bytes)
    (hl : rs.length = 64) (hb : buf.read h = b0 :: v :: rs) (h0 : b0.toNat ≤ 8) (h' : Heap) (t : Slice)
    (hc : convertToEthCompatible h buf = .ok (h', t)) : buf.read h' = b0 :: (rs ++ [v - 27]) := by
  rw [convert_ecdsa h buf hv b0 v rs hl hb h0] at hc
  rw [← (Prod.mk.inj (Res.ok.inj hc)).1]
  have hlen := read_length hv
  rw [hb, List.length_cons, List.length_cons] at hlen
  obtain ⟨-, h1, h2⟩ := hv
  unfold Slice.read at hb ⊢
  rw [store_mem_eq]
  have hl65 : (rs ++ [v - 27]).length = 65 := by simp [hl]
  generalize rs ++ [v - 27] = w at hl65 ⊢
  apply List.ext_getElem?
  intro i
  rw [List.getElem?_take, List.getElem?_drop, getElem?_splice _ _ _ (by omega)]
  cases i with
  | zero =>
    rw [if_pos (by omega), if_neg (by omega)]
    have := congrArg (fun l => l[0]?) hb
    simp only [List.getElem?_take, List.getElem?_drop] at this
    rw [if_pos (by omega)] at this
    simpa using this
  | succ i =>
    rw [List.getElem?_cons_succ]
    split_ifs with c1 c2
    · congr 1; omega
    · omega
    · rw [List.getElem?_eq_none (by omega)]

/-! ## C59, C60 -/

/-- **C59** `Verify` rejects every signature of the empty message, although `Sign` produces one: with an
Ed25519 key always. So "what Sign returns Verify accepts" fails for the empty message. -/
theorem C59_empty_message (E : Signature.Ext) :
    (∀ pub sig, verify E pub [] (some sig) = .ok false) ∧
    ∀ (fuel : Nat) (rand key : Bytes) (opt : Opt), key.length = 64 →
      ∃ sig, sign E fuel rand 10 (.ed key) [] opt = some (.ok sig) ∧
        verify E (PrivateKey.ed key).matching [] (some sig) = .ok false := by
  have h1 : ∀ pub sig, verify E pub [] (some sig) = .ok false := fun pub sig => rfl
  refine ⟨h1, fun fuel rand key opt hk => ?_⟩
  refine ⟨⟨10, .bytes ⟨E.edSig key [], []⟩⟩, ?_, h1 _ _⟩
  unfold sign edSign
  have : ¬ ((10 : Scheme) ≠ SHA512withEDDSA) := by decide
  simp only [if_neg this]
  rw [if_neg (by omega)]
  rfl

/-- **C60** (partial) For Ethereum keys `Sign` and `Verify` treat the same message the same way: a message
signed with the hash option, if it does not have 32 bytes, or a digest signed without, is accepted.
Missing: 32-byte messages with the hash option (`C60_hashed_32_bytes_rejected`). -/
theorem C60_eth_digest_partial (E : Signature.Ext) (hE : E.Lawful) (fuel : Nat) (rand : Bytes) (priv : ECPriv)
    (hv : EthPair priv) (msg : Bytes) (opt : Opt) (sig : Sig Buf)
    (hs : sign E fuel rand 11 (.eth priv) msg opt = some (.ok sig))
    (hopt : opt = .bool true → msg.length ≠ 32 ∧ msg ≠ []) :
    verify E (.eth priv.pub) msg (some sig) = .ok true := by
  refine C33_sign_verify_partial E hE fuel rand 11 (.eth priv) hv msg opt sig hs ?_
    (fun ⟨_, ho, hl⟩ => (hopt ho).1 hl)
  by_cases ho : opt = .bool true
  · exact (hopt ho).2
  rintro rfl
  rcases sign_ok_cases hs with ⟨alg, priv, r, s, h, -⟩ | ⟨alg, priv, a, b, h, -⟩ |
    ⟨alg, priv, a, r, s, h, -⟩ | ⟨key, h, -⟩ | ⟨priv', b, h, -, he, -⟩
  · cases h
  · cases h
  · cases h
  · cases h
  · cases h
    rw [if_neg ho] at he
    have := (hE.eth_sign priv _ b hv he).1
    simp at this

/-! ## C72 -/

/-- **C72** For the schemes named *hash*`withECDSA`, `Verify` with numbers `r`, `s` is the standard ECDSA
verification of the hash of the message by exactly the hash function in the name. -/
theorem C72_ecdsa_standard (E : Signature.Ext) (hE : E.Lawful) (scheme : Scheme) (a : HashAlg)
    (hname : name scheme = .ok (a.published ++ "withECDSA")) (alg : Alg) (pub : ECPub)
    (hc : pub.curve ∈ Curves.all E.k1name) [Fact pub.curve.P.Prime]
    (G Q : Pt pub.curve (curveA E.k1name pub.curve)) (hG : xy G = (pub.curve.Gx, pub.curve.Gy))
    (hQ : Q ≠ 0) (hp : xy Q = (pub.x, pub.y)) (msg : Bytes) (hm : msg ≠ []) (r s : Int)
    (c : Option Curve) :
    ∃ b, verify E (.ec alg pub) msg (some ⟨scheme, .dsa r s c⟩) = .ok b ∧
      (b = true ↔ Accepts G Q (bits2int pub.curve.N (E.hash a msg)) r s) := by
  have ha : scheme.toNat ≤ 8 ∧ hashOf scheme = some a := by
    have : ∀ scheme : Scheme, ∀ a ∈ [HashAlg.sha224, .sha256, .sha384, .sha512, .sha3_224, .sha3_256,
        .sha3_384, .sha3_512, .ripemd160, .sm3, .keccak256],
        name scheme = .ok (a.published ++ "withECDSA") → scheme.toNat ≤ 8 ∧ hashOf scheme = some a := by
      decide +kernel
    exact this scheme a (by cases a <;> decide) hname
  have hm0 : ¬ msg.length = 0 := fun e => hm (List.eq_nil_of_length_eq_zero e)
  refine ⟨E.ecdsaVerify pub (E.hash a msg) r s, ?_, hE.ecdsa_verify pub _ r s hc G Q hG hQ hp⟩
  unfold verify
  simp only
  rw [if_neg hm0]
  simp only [ha.2, if_pos ((isECDSA_iff scheme).2 ha.1)]

/-- **C72** A compact signature that `Verify` accepts satisfies the ECDSA equation for the given public
key, and that key is a point of secp256k1. -/
theorem C72_compact_sound (E : Signature.Ext) (hE : E.Lawful) (scheme : Scheme) (a : HashAlg)
    (hname : name scheme = .ok (a.published ++ "withECDSA")) (alg : Alg) (pub : ECPub)
    (msg : Bytes) (sig : Buf) (h : verify E (.ec alg pub) msg (some ⟨scheme, .bytes sig⟩) = .ok true)
    [Fact (Curves.secp256k1 E.k1name).P.Prime] (G : Pt (Curves.secp256k1 E.k1name) 0)
    (hG : xy G = ((Curves.secp256k1 E.k1name).Gx, (Curves.secp256k1 E.k1name).Gy)) :
    sig.data.length = 65 ∧
    ∃ Q R : Pt (Curves.secp256k1 E.k1name) 0, xy Q = (pub.x, pub.y) ∧
      (xy R).1 % (Curves.secp256k1 E.k1name).N =
        rOf (sig.data.drop 1) % (Curves.secp256k1 E.k1name).N ∧
      rOf (sig.data.drop 1) • Q + bits2int (Curves.secp256k1 E.k1name).N (E.hash a msg) • G =
        sOf (sig.data.drop 1) • R := by
  have ha : scheme.toNat ≤ 8 ∧ hashOf scheme = some a := by
    have : ∀ scheme : Scheme, ∀ a ∈ [HashAlg.sha224, .sha256, .sha384, .sha512, .sha3_224, .sha3_256,
        .sha3_384, .sha3_512, .ripemd160, .sm3, .keccak256],
        name scheme = .ok (a.published ++ "withECDSA") → scheme.toNat ≤ 8 ∧ hashOf scheme = some a := by
      decide +kernel
    exact this scheme a (by cases a <;> decide) hname
  unfold verify at h
  simp only at h
  by_cases hm : msg.length = 0
  · rw [if_pos hm] at h; simp at h
  rw [if_neg hm] at h
  simp only [ha.2, if_pos ((isECDSA_iff scheme).2 ha.1), secp256k1Verify] at h
  cases hr : E.recoverCompact sig.data (E.hash a msg) with
  | err m => rw [hr] at h; simp at h
  | panic m => rw [hr] at h; simp at h
  | ok q =>
    obtain ⟨x, y⟩ := q
    rw [hr] at h
    simp at h
    obtain ⟨h65, hs⟩ := hE.compact_sound sig.data _ x y hr
    obtain ⟨Q, R, hQ, hR, he⟩ := hs G hG
    exact ⟨h65, Q, R, by rw [hQ, h.1, h.2], hR, he⟩

/-! ## Concrete cases -/

theorem keyOn_eth (d : Nat) (hd : d % (Curves.secp256k1 "").N ≠ 0) : EthPair (keyOn (Curves.secp256k1 "") d) :=
  ethPair_of_ec (Or.inl rfl) (keyOn_pair _ (by decide) d hd) rfl

/-- `Sign` returned a signature. -/
def signed : Option (Res (Sig Buf)) → Bool
  | some (.ok _) => true
  | _ => false

theorem signed_iff {o : Option (Res (Sig Buf))} (h : signed o = true) : ∃ sig, o = some (.ok sig) := by
  unfold signed at h
  split at h
  next s => exact ⟨s, rfl⟩
  next => cases h

def edKey : Bytes := List.replicate 32 7 ++ refSig.edPublic (List.replicate 32 7)

/-- Valid keys of each kind with which the reference implementation signs (hypotheses of C30, C33, C71):
SM2 with a user id, ECDSA on P-224, compact secp256k1, Ed25519, Ethereum with the hash option. -/
example : ∀ x ∈ [((9 : Scheme), PrivateKey.ec .sm2 (keyOn Curves.sm2 2), Opt.str [0x41]),
      (0, .ec .ecdsa (keyOn Curves.p224 2), .other),
      (1, .ec .ecdsa (keyOn (Curves.secp256k1 "") 5), .other), (10, .ed edKey, .other),
      (11, .eth (keyOn (Curves.secp256k1 "") 2), .bool true)],
    ValidKey refSig x.2.1 ∧ ∃ sig, sign refSig 1 (zeros 80) x.1 x.2.1 abc x.2.2 = some (.ok sig) := by
  intro x hx
  refine ⟨?_, signed_iff ?_⟩
  · simp only [List.mem_cons, List.not_mem_nil, or_false] at hx
    rcases hx with rfl | rfl | rfl | rfl | rfl
    · exact keyOn_pair _ (by decide) 2 (by decide +kernel)
    · exact keyOn_pair _ (by decide) 2 (by decide +kernel)
    · exact keyOn_pair _ (by decide) 5 (by decide +kernel)
    · exact ⟨List.replicate 32 7, by decide, rfl⟩
    · exact keyOn_eth 2 (by decide +kernel)
  · revert x
    decide +kernel

/-- `Sign` does accept a user id with a zero byte (C30_nul_id_lost). -/
example : ∃ sig, sign refSig 1 (zeros 80) 9 (.ec .sm2 (keyOn Curves.sm2 2)) abc (.str [0x41, 0, 0x42]) =
    some (.ok sig) := signed_iff (by decide +kernel)

/-- **C60** With the hash option and a 32-byte message, `Sign` signs the hash of the message but `Verify`
checks the message itself as if it were the hash: a freshly made signature is rejected. -/
theorem C60_hashed_32_bytes_rejected :
    ∃ priv, EthPair priv ∧ ∃ msg : Bytes, msg.length = 32 ∧
      ∃ sig, sign refSig 0 [] 11 (.eth priv) msg (.bool true) = some (.ok sig) ∧
        verify refSig (.eth priv.pub) msg (some sig) = .ok false := by
  refine ⟨keyOn (Curves.secp256k1 "") 2, keyOn_eth 2 (by decide +kernel), List.replicate 32 1, by decide, ?_⟩
  have h : (match sign refSig 0 [] 11 (.eth (keyOn (Curves.secp256k1 "") 2)) (List.replicate 32 1) (.bool true) with
    | some (.ok sig) => verify refSig (.eth (keyOn (Curves.secp256k1 "") 2).pub) (List.replicate 32 1) (some sig)
        == .ok false
    | _ => false) = true := by decide +kernel
  split at h
  next sig hs => exact ⟨sig, hs, by simpa using h⟩
  next => cases h

/-- The hypotheses of C60_eth_digest_partial: a digest without, a message with the hash option. -/
example : ∃ sig, sign refSig 0 [] 11 (.eth (keyOn (Curves.secp256k1 "") 2)) (List.replicate 32 3) (.bool false) =
    some (.ok sig) := signed_iff (by decide +kernel)

/-- A heap with one array, and the whole of it. -/
def heapOf (b : Bytes) : Heap := ⟨fun _ => b, 1⟩
def allOf (b : Bytes) : Slice := ⟨0, 0, b.length, b.length⟩

theorem allOf_valid (b : Bytes) : (allOf b).Valid (heapOf b) := ⟨by simp [heapOf, allOf], le_refl _, by simp [heapOf, allOf]⟩
theorem allOf_read (b : Bytes) : (allOf b).read (heapOf b) = b := by simp [Slice.read, heapOf, allOf]

/-- Byte strings of each format (hypotheses of C31, C32, C35, C37). -/
example : (deserialize (heapOf (zeros 64)) (allOf (zeros 64))).isOk ∧
    (deserialize (heapOf (zeros 65)) (allOf (zeros 65))).isOk ∧
    (deserialize (heapOf (zeros 66)) (allOf (zeros 66))).isOk ∧
    (deserialize (heapOf (9 :: zeros 67)) (allOf (9 :: zeros 67))).isOk ∧
    (deserialize (heapOf (10 :: zeros 66)) (allOf (10 :: zeros 66))).isOk ∧
    (convertToEthCompatible (heapOf (zeros 66)) (allOf (zeros 66))).isOk ∧
    (convertToEthCompatible (heapOf (11 :: zeros 65)) (allOf (11 :: zeros 65))).isOk ∧
    (deserialize (heapOf (zeros 1)) (allOf (zeros 1))).isErr := by
  decide +kernel

/-- A key and a scheme that do not go together, and two that do (C34). -/
example (k : ECPub) : ¬ Compatible (.eth k) 1 ∧ ¬ Compatible (.ec .ecdsa ⟨Curves.p256, 1, 1⟩) 9 ∧
    Compatible (.ec .sm2 ⟨Curves.sm2, 1, 1⟩) 9 := by
  refine ⟨by simp only [Compatible]; decide, ?_, Or.inr ⟨rfl, rfl⟩⟩
  simp only [Compatible]
  decide +kernel

/-- A signature that the ECDSA standard accepts, and `Verify` too (C72): the reference instance. -/
example : (match sign refSig 0 (zeros 80) 1 (.ec .ecdsa (keyOn Curves.p256 2)) abc .other with
    | some (.ok sig) => verify refSig (.ec .ecdsa (keyOn Curves.p256 2).pub) abc (some sig) == .ok true
    | _ => false) = true := by decide +kernel

example : name 1 = .ok (HashAlg.sha256.published ++ "withECDSA") := by decide +kernel

end Verif.Props
