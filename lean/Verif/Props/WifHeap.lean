import Verif.Lemmas.WifHeap
import Verif.Props.Wif
/-!
# C129: WIF conversion clears its buffers
-/
namespace Verif.Props

open Verif.Spec Verif.Keypair Verif.EC

/-- What `Key2WIF` does, in one statement for the theorems below. -/
theorem key2WIF_facts (E : Ext) (W : WifExt) (grow : Nat → Nat) (h : Heap) (key : PrivRef) (v : PrivateKey)
    (hk : key.read h = some v) (hv : ∀ s, key = .ed s → s.Valid h) :
    let r := key2WIFRef E W grow key h
    KeptHeap h r.1 ∧ Outcome h (FreshCopy h) (r.2.map fun s => (r.1, s)) (key2WIF E W v) ∧
      ∀ h1 data, serializePrivateKeyRef E grow key h = .ok (h1, data) →
        (∀ d, serializePrivateKey E v = .ok d → d.length < 34 ∨ d.getD 0 0 ≠ PK_ECDSA ∨ d.getD 1 0 ≠ P256 → r.1 = h1) ∧
        (∀ d, serializePrivateKey E v = .ok d → ¬(d.length < 34 ∨ d.getD 0 0 ≠ PK_ECDSA ∨ d.getD 1 0 ≠ P256) →
          data.read r.1 = zeros data.len ∧ h1.next ≤ r.1.next ∧
            ∀ a, a < h1.next → a ≠ data.arr → r.1.mem a = h1.mem a) := by
  intro r
  have e := serializePriv_outcome E grow h key hv
  rw [hk] at e
  dsimp only at e
  have er : r = key2WIFRef E W grow key h := rfl
  unfold key2WIFRef at er
  unfold key2WIF
  revert e er
  generalize serializePrivateKeyRef E grow key h = p
  generalize serializePrivateKey E v = q
  intro e er
  rcases p with ⟨h1, data⟩ | m | m <;> rcases q with d | m' | m' <;> try exact e.elim
  · obtain ⟨k, c⟩ := e
    dsimp only at er
    rw [c.2.2, c.len] at er
    by_cases hb : d.length < 34 ∨ d.getD 0 0 ≠ PK_ECDSA ∨ d.getD 1 0 ≠ P256
    · rw [if_pos hb] at er
      rw [er]
      dsimp only
      rw [if_pos hb]
      refine ⟨k, rfl, fun h1' data' he => ?_⟩
      cases he
      exact ⟨fun _ _ _ => rfl, fun d' hd hn => by cases hd; exact absurd hb hn⟩
    · rw [if_neg hb] at er
      obtain ⟨t1, t2, t3⟩ := key2WIF_tail k c (by omega) W
      rw [t1] at er
      rw [read_alloc] at er
      dsimp only
      rw [if_neg hb]
      have hda := c.2.1
      have fin : ∀ (h' : Heap), KeptHeap (clearBytes _ (clearBytes data _)) h' →
          KeptHeap h h' ∧ data.read h' = zeros data.len ∧ h1.next ≤ h'.next ∧
            ∀ a, a < h1.next → a ≠ data.arr → h'.mem a = h1.mem a :=
        fun h' k' => ⟨(t2.kept k hda).trans k', by rw [k'.read (c.1.1.trans_le t2.1)]; exact t3,
          t2.1.trans k'.1,
          fun a ha hn => by rw [k'.2 a (ha.trans_le t2.1)]; exact (t2.2 a ha).1 hn⟩
      generalize clearBytes _ (clearBytes data _) = h6 at er fin
      revert er
      generalize decText _ = text
      intro er
      have k7 := kept_alloc h6 text
      cases hw : W.b58enc text with
      | ok w =>
        rw [hw] at er
        dsimp only at er
        rw [er]
        have k8 := kept_alloc (h6.alloc text).1 w
        obtain ⟨f1, f2, f3⟩ := fin _ (k7.trans k8)
        refine ⟨f1, ⟨f1, ?_⟩, fun h1' data' he => ?_⟩
        · have fa := fresh_alloc (h6.alloc text).1 w
          refine ⟨fa.1, ?_, fa.2.2⟩
          exact (fin _ k7).1.1.trans fa.2.1
        · cases he
          exact ⟨fun d' hd hn => by cases hd; exact absurd hn hb, fun _ _ _ => ⟨f2, f3⟩⟩
      | err m =>
        rw [hw] at er
        dsimp only at er
        rw [er]
        obtain ⟨f1, f2, f3⟩ := fin _ k7
        refine ⟨f1, rfl, fun h1' data' he => ?_⟩
        cases he
        exact ⟨fun d' hd hn => by cases hd; exact absurd hn hb, fun _ _ _ => ⟨f2, f3⟩⟩
      | panic m =>
        rw [hw] at er
        dsimp only at er
        rw [er]
        obtain ⟨f1, f2, f3⟩ := fin _ k7
        refine ⟨f1, rfl, fun h1' data' he => ?_⟩
        cases he
        exact ⟨fun d' hd hn => by cases hd; exact absurd hn hb, fun _ _ _ => ⟨f2, f3⟩⟩
  · rw [er]
    exact ⟨KeptHeap.refl h, e, fun _ _ he => by cases he⟩
  · rw [er]
    exact ⟨KeptHeap.refl h, e, fun _ _ he => by cases he⟩

/-- C129: `Key2WIF` gives what the model without memory gives, in a new array, and changes no memory that was there,
although it writes into its buffers. -/
theorem C129_key2wif (E : Ext) (W : WifExt) (grow : Nat → Nat) (h : Heap) (key : PrivRef) (v : PrivateKey)
    (hk : key.read h = some v) (hv : ∀ s, key = .ed s → s.Valid h) :
    let r := key2WIFRef E W grow key h
    KeptHeap h r.1 ∧ Outcome h (FreshCopy h) (r.2.map fun s => (r.1, s)) (key2WIF E W v) :=
  let f := key2WIF_facts E W grow h key v hk hv
  ⟨f.1, f.2.1⟩

/-- `Key2WIF` succeeds only on keys whose serialization begins as that of an ECDSA P-256 key. -/
theorem key2WIF_head {E : Ext} {W : WifExt} {v : PrivateKey} {w : Bytes} (hw : key2WIF E W v = .ok w) {d : Bytes}
    (hd : serializePrivateKey E v = .ok d) : ¬(d.length < 34 ∨ d.getD 0 0 ≠ PK_ECDSA ∨ d.getD 1 0 ≠ P256) := by
  intro hb
  unfold key2WIF at hw
  rw [hd] at hw
  dsimp only at hw
  rw [if_pos hb] at hw
  cases hw

/-- C129 (the part that holds): when `Key2WIF` succeeds, the serialized private key that it got from
`SerializePrivateKey` is cleared. -/
theorem C129_key2wif_cleared_partial (E : Ext) (W : WifExt) (grow : Nat → Nat) (h : Heap) (key : PrivRef)
    (v : PrivateKey) (hk : key.read h = some v) (hv : ∀ s, key = .ed s → s.Valid h) (w : Bytes)
    (hw : key2WIF E W v = .ok w) (h1 : Heap) (data : Slice)
    (hs : serializePrivateKeyRef E grow key h = .ok (h1, data)) :
    serializePrivateKey E v = .ok (data.read h1) ∧
      data.read (key2WIFRef E W grow key h).1 = zeros (data.read h1).length := by
  have e := serializePriv_outcome E grow h key hv
  rw [hk, hs] at e
  dsimp only at e
  obtain ⟨_, _, f⟩ := key2WIF_facts E W grow h key v hk hv
  cases hq : serializePrivateKey E v with
  | ok d =>
    rw [hq] at e
    rw [e.2.2.2, ← e.2.len]
    exact ⟨rfl, ((f h1 data hs).2 d hq (key2WIF_head hw hq)).1⟩
  | err m => rw [hq] at e; exact e.elim
  | panic m => rw [hq] at e; exact e.elim

/-- C129 (the negation): whenever `Key2WIF` succeeds, a copy of the private number stays behind in memory: the slice
that `D.Bytes()` returned inside `SerializePrivateKey`. -/
theorem C129_key2wif_left (E : Ext) (W : WifExt) (grow : Nat → Nat) (h : Heap) (alg : Alg) (priv : ECPriv) (w : Bytes)
    (hw : key2WIF E W (.ec alg priv) = .ok w) :
    LeftBehind h (key2WIFRef E W grow (.num (some (.ec alg priv))) h).1 (bytesOfNat priv.D) := by
  have hv : ∀ s, PrivRef.num (some (.ec alg priv)) = .ed s → s.Valid h := fun s hs => by cases hs
  obtain ⟨_, _, f⟩ := key2WIF_facts E W grow h (.num (some (.ec alg priv))) (.ec alg priv) rfl hv
  have e := serializePriv_outcome E grow h (.num (some (.ec alg priv))) hv
  dsimp only [PrivRef.read] at e
  cases hs : serializePrivateKeyRef E grow (.num (some (.ec alg priv))) h with
  | ok p =>
    obtain ⟨h1, data⟩ := p
    cases hq : serializePrivateKey E (.ec alg priv) with
    | ok d =>
      obtain ⟨a, a1, a2, a3, a4⟩ := serializePriv_left hs
      obtain ⟨_, n, g⟩ := (f h1 data hs).2 d hq (key2WIF_head hw hq)
      exact ⟨a, a1, a2.trans_le n, by rw [g a a2 a3, a4]⟩
    | err m => rw [hs, hq] at e; exact e.elim
    | panic m => rw [hs, hq] at e; exact e.elim
  | err m =>
    rw [hs] at e
    cases hq : serializePrivateKey E (.ec alg priv) with
    | ok d => rw [hq] at e; exact e.elim
    | err m => unfold key2WIF at hw; rw [hq] at hw; cases hw
    | panic m => rw [hq] at e; exact e.elim
  | panic m =>
    rw [hs] at e
    cases hq : serializePrivateKey E (.ec alg priv) with
    | ok d => rw [hq] at e; exact e.elim
    | err m => rw [hq] at e; exact e.elim
    | panic m => unfold key2WIF at hw; rw [hq] at hw; cases hw

/-- C129 (the negation, for keys that are refused): when `Key2WIF` refuses a key, its whole serialization stays behind
in memory. -/
theorem C129_key2wif_refused (E : Ext) (W : WifExt) (grow : Nat → Nat) (h : Heap) (key : PrivRef) (v : PrivateKey)
    (hk : key.read h = some v) (hv : ∀ s, key = .ed s → s.Valid h) (d : Bytes) (hd : serializePrivateKey E v = .ok d)
    (hr : d.length < 34 ∨ d.getD 0 0 ≠ PK_ECDSA ∨ d.getD 1 0 ≠ P256) :
    key2WIF E W v = .err "only ECDSA P-256 keys support WIF" ∧
      ∃ s, FreshCopy h (key2WIFRef E W grow key h).1 s d := by
  constructor
  · unfold key2WIF
    rw [hd]
    dsimp only
    rw [if_pos hr]
  · have e := serializePriv_outcome E grow h key hv
    rw [hk] at e
    dsimp only at e
    rw [hd] at e
    obtain ⟨_, _, f⟩ := key2WIF_facts E W grow h key v hk hv
    cases hs : serializePrivateKeyRef E grow key h with
    | ok p =>
      obtain ⟨h1, data⟩ := p
      rw [hs] at e
      rw [(f h1 data hs).1 d hd hr]
      exact ⟨data, e.2⟩
    | err m => rw [hs] at e; exact e.elim
    | panic m => rw [hs] at e; exact e.elim

/-- C129: `WIF2Key` gives what the model without memory gives and changes no memory that was there; when it succeeds,
every byte slice that it made is cleared. -/
theorem C129_wif2key_partial (E : Ext) (W : WifExt) (h : Heap) (wif : Slice) :
    let r := wif2KeyRef E W wif h
    r.2 = wif2Key E W (wif.read h) ∧ KeptHeap h r.1 ∧ ∀ k, r.2 = .ok k → Wiped h r.1 := by
  intro r
  have er : r = wif2KeyRef E W wif h := rfl
  unfold wif2KeyRef at er
  unfold wif2Key
  cases ht : W.b58dec (wif.read h) with
  | err m => rw [ht] at er; rw [er]; exact ⟨rfl, KeptHeap.refl h, fun k hk => by cases hk⟩
  | panic m => rw [ht] at er; rw [er]; exact ⟨rfl, KeptHeap.refl h, fun k hk => by cases hk⟩
  | ok text =>
    rw [ht] at er
    dsimp only at er ⊢
    rw [read_alloc] at er
    have k2 := kept_clear_alloc h text
    have w2 := wiped_clear_alloc (KeptHeap.refl h) (wiped_refl h) text
    generalize clearBytes (h.alloc text).2 (h.alloc text).1 = h2 at er k2 w2
    cases hs : setString text with
    | none => rw [hs] at er; rw [er]; exact ⟨rfl, k2, fun k hk => by cases hk⟩
    | some bi =>
      rw [hs] at er
      dsimp only at er ⊢
      rw [read_alloc] at er
      by_cases hp : ((bytesOfNat bi.natAbs).length : Int) - 4 ≠ 34
      · rw [if_pos hp] at er ⊢
        rw [er]
        exact ⟨rfl, k2.trans (kept_alloc _ _), fun k hk => by cases hk⟩
      · rw [if_neg hp] at er ⊢
        by_cases hc : W.checksum ((bytesOfNat bi.natAbs).take 34) ≠ (bytesOfNat bi.natAbs).drop 34
        · rw [if_pos hc] at er ⊢
          rw [er]
          exact ⟨rfl, k2.trans (kept_alloc _ _), fun k hk => by cases hk⟩
        · rw [if_neg hc] at er ⊢
          rw [er]
          exact ⟨rfl, k2.trans (kept_clear_alloc _ _), fun _ _ => wiped_clear_alloc k2 w2 _⟩

/-- C129 (the negation): when `WIF2Key` rejects a number for its length or its checksum, the bytes of the number stay
behind in memory. They are those of a private key if only the checksum is wrong. -/
theorem C129_wif2key_left (E : Ext) (W : WifExt) (h : Heap) (wif : Slice) (text : Bytes) (bi : Int) (m : String)
    (ht : W.b58dec (wif.read h) = .ok text) (hs : setString text = some bi)
    (he : wif2Key E W (wif.read h) = .err m) :
    LeftBehind h (wif2KeyRef E W wif h).1 (bytesOfNat bi.natAbs) := by
  unfold wif2Key at he
  unfold wif2KeyRef
  rw [ht] at he ⊢
  dsimp only at he ⊢
  rw [read_alloc]
  rw [hs] at he ⊢
  dsimp only at he ⊢
  rw [read_alloc]
  have k2 := kept_clear_alloc h text
  generalize clearBytes (h.alloc text).2 (h.alloc text).1 = h2 at k2
  have left : LeftBehind h (h2.alloc (bytesOfNat bi.natAbs)).1 (bytesOfNat bi.natAbs) :=
    ⟨h2.next, k2.1, Nat.lt_succ_self _, if_pos rfl⟩
  by_cases hp : ((bytesOfNat bi.natAbs).length : Int) - 4 ≠ 34
  · rw [if_pos hp]; exact left
  · rw [if_neg hp] at he ⊢
    by_cases hc : W.checksum ((bytesOfNat bi.natAbs).take 34) ≠ (bytesOfNat bi.natAbs).drop 34
    · rw [if_pos hc]; exact left
    · rw [if_neg hc] at he; cases he

/-- C129: `GetP256KeyPairFromWIF` gives what the model without memory gives and changes no memory that was there; and
whether it succeeds, fails or panics, every byte slice that it made is cleared. -/
theorem C129_getP256 (E : Ext) (W : WifExt) (h : Heap) (wif : Slice) :
    let r := getP256KeyPairFromWIFRef E W wif h
    r.2 = getP256KeyPairFromWIF E W (wif.read h) ∧ KeptHeap h r.1 ∧ Wiped h r.1 := by
  intro r
  have er : r = getP256KeyPairFromWIFRef E W wif h := rfl
  unfold getP256KeyPairFromWIFRef at er
  unfold getP256KeyPairFromWIF
  cases ht : W.b58dec (wif.read h) with
  | err m => rw [ht] at er; rw [er]; exact ⟨rfl, KeptHeap.refl h, wiped_refl h⟩
  | panic m => rw [ht] at er; rw [er]; exact ⟨rfl, KeptHeap.refl h, wiped_refl h⟩
  | ok text =>
    rw [ht] at er
    dsimp only at er ⊢
    rw [read_alloc] at er
    have k2 := kept_clear_alloc h text
    have w2 := wiped_clear_alloc (KeptHeap.refl h) (wiped_refl h) text
    generalize clearBytes (h.alloc text).2 (h.alloc text).1 = h2 at er k2 w2
    cases hs : setString text with
    | none => rw [hs] at er; rw [er]; exact ⟨rfl, k2, w2⟩
    | some bi =>
      rw [hs] at er
      dsimp only at er ⊢
      rw [read_alloc] at er
      rw [er]
      exact ⟨rfl, k2.trans (kept_clear_alloc _ _), wiped_clear_alloc k2 w2 _⟩

/-- C129 (the negation, for every private key): a WIF text of the key with a wrong checksum is rejected by `WIF2Key`,
and the key stays behind in memory. -/
theorem C129_wif2key_typo (E : Ext) (W : WifExt) (hW : W.Lawful) (D : Nat) (sum : Bytes) (hl : sum.length = 4)
    (hs : sum ≠ (W.sha256 (W.sha256 (wifPayload D))).take 4) :
    ∃ w, W.b58enc (decText (natOfBytes (wifPayload D ++ sum))) = .ok w ∧
      ∀ (h : Heap) (wif : Slice), wif.read h = w →
        (wif2KeyRef E W wif h).2 = .err "invalid WIF data, checksum failed" ∧
        LeftBehind h (wif2KeyRef E W wif h).1 (0x80 :: beFix 32 D ++ 0x01 :: sum) := by
  have hpl : (wifPayload D).length = 34 := by simp [wifPayload, beFix_length]
  have hbytes : bytesOfNat (natOfBytes (wifPayload D ++ sum)) = wifPayload D ++ sum :=
    bytesOfNat_natOfBytes_cons 0x80 (by decide) _
  have hlen : (wifPayload D ++ sum).length = 38 := by rw [List.length_append, hpl, hl]
  have hpos : 0 < natOfBytes (wifPayload D ++ sum) := by
    rcases Nat.eq_zero_or_pos (natOfBytes (wifPayload D ++ sum)) with h | h
    · rw [h] at hbytes
      rw [← hbytes] at hlen
      simp [bytesOfNat, byteLen_zero, beFix] at hlen
    · exact h
  obtain ⟨w, h1, h2⟩ := hW.b58 _ hpos
  refine ⟨w, h1, fun h wif hr => ?_⟩
  have he : wif2Key E W (wif.read h) = .err "invalid WIF data, checksum failed" := by
    rw [hr]
    unfold wif2Key
    rw [h2]
    simp only [setString_decText, Int.natAbs_natCast, hbytes]
    rw [if_neg (by rw [hlen]; decide), List.take_left' hpl, List.drop_left' hpl,
      if_pos (fun e => hs (e.symm.trans rfl))]
  have el : wifPayload D ++ sum = 0x80 :: beFix 32 D ++ 0x01 :: sum := by simp [wifPayload]
  refine ⟨by rw [(C129_wif2key_partial E W h wif).1, he], ?_⟩
  have q := C129_wif2key_left E W h wif _ _ _ (by rw [hr]; exact h2) (setString_decText _) he
  rwa [Int.natAbs_natCast, hbytes, el] at q

/-! Cases: `Key2WIF` of a key with the number 2 leaves the byte 2 behind; a key of another kind is refused; and there is
a wrong checksum for every key. -/

example (grow : Nat → Nat) (h : Heap) : ∃ x y,
    LeftBehind h (key2WIFRef refExt refWif grow (.num (some (.ec .ecdsa ⟨2, ⟨Curves.p256, x, y⟩⟩))) h).1 [2] ∧
    ¬Wiped h (key2WIFRef refExt refWif grow (.num (some (.ec .ecdsa ⟨2, ⟨Curves.p256, x, y⟩⟩))) h).1 := by
  have hp : ValidPoint "" ⟨Curves.p256, (refExt.baseMult Curves.p256 2).1, (refExt.baseMult Curves.p256 2).2⟩ :=
    ⟨by decide +kernel, by decide +kernel, by decide +kernel⟩
  generalize hq : refExt.baseMult Curves.p256 2 = q at hp
  refine ⟨q.1, q.2, ?_⟩
  obtain ⟨w, h1, _⟩ := (C24_wif_roundtrip refExt (Or.inl rfl) refWif refWif_lawful).1 2 q.1 q.2 (by decide)
    hq.symm ⟨Or.inl rfl, (by decide +kernel : Curves.p256 ∈ Curves.all ""),
      (by decide +kernel : 2 < 256 ^ Curves.p256.byteSize), hq.symm, hp⟩
  have l := C129_key2wif_left refExt refWif grow h .ecdsa _ w h1
  have e2 : bytesOfNat 2 = [2] := by decide +kernel
  rw [show (⟨2, ⟨Curves.p256, q.1, q.2⟩⟩ : ECPriv).D = 2 from rfl, e2] at l
  refine ⟨l, fun hw => ?_⟩
  obtain ⟨a, a1, a2, a3⟩ := l
  have := hw a a1 a2 2 (by rw [a3]; simp)
  exact absurd this (by decide)

example (E : Ext) (W : WifExt) (grow : Nat → Nat) (h : Heap) (key : Bytes) :
    key2WIF E W (.ed key) = .err "only ECDSA P-256 keys support WIF" ∧
      ∃ s, FreshCopy h (key2WIFRef E W grow (.num (some (.ed key))) h).1 s ([PK_EDDSA, ED25519] ++ key) :=
  C129_key2wif_refused E W grow h (.num (some (.ed key))) (.ed key) rfl (fun s hs => by cases hs) _ rfl
    (.inr (.inl (show PK_EDDSA ≠ PK_ECDSA by decide)))

example (D : Nat) : ∃ sum : Bytes, sum.length = 4 ∧ sum ≠ (refWif.sha256 (refWif.sha256 (wifPayload D))).take 4 := by
  by_cases h : (zeros 4 : Bytes) = (refWif.sha256 (refWif.sha256 (wifPayload D))).take 4
  · exact ⟨[1, 1, 1, 1], rfl, by rw [← h]; decide⟩
  · exact ⟨zeros 4, rfl, h⟩

end Verif.Props
