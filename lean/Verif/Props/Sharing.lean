import Verif.Model.KeyHeap
import Verif.Props.Signature
/-!
# C98, C99: parsed keys and signatures do not change when the input buffer is reused

Specification: after parsing, the program may write anything into the array of the argument (`OnlyWrote`);
the parsed value, as a reader sees it, must stay the same.
-/
namespace Verif.Props
open Verif.Keypair Verif.Signature Verif.Spec

/-- From `h` to `h'` nothing but the array of `s` was written to. -/
def OnlyWrote (h h' : Heap) (s : Slice) : Prop := ∀ a, a ≠ s.arr → h'.mem a = h.mem a

theorem sub_read_drop {h : Heap} {s : Slice} (i : ℕ) : (s.sub i s.len).read h = (s.read h).drop i := by
  simp only [Slice.read, Slice.sub, List.drop_take, List.drop_drop]

theorem sub_read_take {h : Heap} {s : Slice} (i j : ℕ) (hj : j ≤ s.len) :
    (s.sub i j).read h = ((s.read h).drop i).take (j - i) := by
  simp only [Slice.read, Slice.sub, List.drop_take, List.drop_drop, List.take_take]
  congr 1
  omega

theorem valid_read_length {h : Heap} {s : Slice} (hv : s.Valid h) : (s.read h).length = s.len := by
  obtain ⟨-, h1, h2⟩ := hv
  simp only [Slice.read, List.length_take, List.length_drop]
  omega

/-- The model on the heap returns the key that the model on byte strings returns. -/
theorem C98_public_refines (E : Keypair.Ext) (h : Heap) (data : Slice) (hv : data.Valid h) (draws : List ℕ) :
    (deserializePublicKeyRef E h data draws).map (fun r => r.map fun x => x.2.read x.1) =
      deserializePublicKey E (data.read h) draws := by
  unfold deserializePublicKeyRef deserializePublicKey
  have hl := valid_read_length hv
  have hs : (data.sub 2 data.len).len = ((data.read h).drop 2).length := by
    simp only [Slice.sub, List.length_drop, hl]
  simp only [sub_read_drop, hl, hs]
  generalize data.read h = b
  generalize (if b.getD 0 0 = PK_ECDSA then Alg.ecdsa else Alg.sm2) = alg
  split_ifs
  · rfl
  · cases getCurve E (b.getD 1 0) with
    | ok c =>
      simp only [Option.map_map]
      congr 1
      funext r
      cases r <;> rfl
    | err m => rfl
    | panic m => rfl
  · rfl
  · simp only [Option.map_some, Res.map, PubRef.read, alloc_read]
  · rfl
  · simp only [Option.map_map]
    congr 1
    funext r
    cases r <;> rfl
  · simp only [Option.map_some]
    cases unmarshalPubkey E (b.drop 1) <;> rfl
  · rfl

/-- **C98** for public keys: whatever is written into the input buffer later, a parsed key stays the same. -/
theorem C98_public (E : Keypair.Ext) (h : Heap) (data : Slice) (hv : data.Valid h) (draws : List ℕ) (h1 : Heap)
    (k : PubRef) (hd : deserializePublicKeyRef E h data draws = some (.ok (h1, k))) (h2 : Heap)
    (hw : OnlyWrote h1 h2 data) : k.read h2 = k.read h1 := by
  cases k with
  | num k => rfl
  | ed s =>
    have hs : s.arr = h.next := by
      unfold deserializePublicKeyRef at hd
      simp only at hd
      generalize (if (data.read h).getD 0 0 = PK_ECDSA then Alg.ecdsa else Alg.sm2) = alg at hd
      split_ifs at hd <;> try (simp at hd; done)
      · cases hg : getCurve E ((data.read h).getD 1 0) with
        | ok c =>
          rw [hg] at hd
          simp only [Option.map_eq_some_iff] at hd
          obtain ⟨r, -, hr⟩ := hd
          cases r <;> simp [Res.map] at hr
        | err m => rw [hg] at hd; simp at hd
        | panic m => rw [hg] at hd; simp at hd
      · simp only [Option.some.injEq, Res.ok.injEq, Prod.mk.injEq, PubRef.ed.injEq] at hd
        rw [← hd.2]
        rfl
      · simp only [Option.map_eq_some_iff] at hd
        obtain ⟨r, -, hr⟩ := hd
        cases r <;> simp at hr
      · simp only [Option.some.injEq] at hd
        cases hg : unmarshalPubkey E ((data.sub 1 data.len).read h) <;> rw [hg] at hd <;> simp [Res.map] at hd
    have : s.arr ≠ data.arr := by have := hv.1; omega
    simp only [PubRef.read, Slice.read, hw _ this]

/-- The model on the heap returns the key that the model on byte strings returns. -/
theorem C99_private_refines (E : Keypair.Ext) (h : Heap) (data : Slice) (hv : data.Valid h) (draws : List ℕ) :
    (deserializePrivateKeyRef E h data draws).map (fun r => r.map fun x => x.2.read x.1) =
      deserializePrivateKey E (data.read h) draws := by
  unfold deserializePrivateKeyRef deserializePrivateKey
  have hl := valid_read_length hv
  have htake : ∀ n, ¬ data.len < n * 2 + 3 → (data.sub 2 (2 + n)).read h = ((data.read h).drop 2).take n := by
    intro n hn
    rw [sub_read_take _ _ (by omega)]
    congr 1
    omega
  have hed : ∀ i, (data.sub i data.len).read h = (data.read h).drop i := sub_read_drop
  generalize hb : data.read h = b at *
  match b, hl with
  | [], hl => simp [← hl]; rfl
  | [t], hl =>
    have h1 : data.len = 1 := by rw [← hl]; rfl
    simp only [List.getD_cons_zero, h1]
    split_ifs with h2 h3 h4 h5 <;> first | (exfalso; omega) | rfl
  | t :: label :: body, hl =>
    have h1 : data.len = body.length + 2 := by rw [← hl]; rfl
    have h2 : ¬ data.len = 0 := by omega
    have h3 : ¬ data.len ≤ 1 := by omega
    have hg0 : (t :: label :: body).getD 0 0 = t := rfl
    have hg1 : (t :: label :: body).getD 1 0 = label := rfl
    simp only [hg0, hg1, if_neg h2, if_neg h3, hl]
    generalize (if t = PK_ECDSA then Alg.ecdsa else Alg.sm2) = alg
    split_ifs
    · cases getCurve E label with
      | ok c =>
        simp only
        split_ifs with h4
        · rfl
        · rw [htake _ h4, hed]
          simp only [Option.map_map]
          have e1 : (t :: label :: body).drop 2 = body := rfl
          have e2 : (t :: label :: body).drop (2 + c.byteSize) = body.drop c.byteSize := by
            rw [← List.drop_drop, e1]
          rw [e1, e2]
          congr 1
          funext r
          cases r with
          | ok p => simp only [Function.comp]; split_ifs <;> rfl
          | err m => rfl
          | panic m => rfl
      | err m => rfl
      | panic m => rfl
    · rfl
    · simp only [Option.map_some, Res.map, PrivRef.read, hed]
      rfl
    · rfl
    · simp only [Option.map_some, hed]
      change some (Res.map _ (Res.map _ (toECDSA E (label :: body)))) = _
      cases toECDSA E (label :: body) <;> rfl
    · rfl

/-- **C99** (partial) for private keys: a parsed key stays the same unless it is an Ed25519 key. Missing:
Ed25519 keys, for which it is false (`C99_ed25519_shared`). -/
theorem C99_private_partial (E : Keypair.Ext) (h : Heap) (data : Slice) (draws : List ℕ) (h1 : Heap)
    (k : PrivRef) (hd : deserializePrivateKeyRef E h data draws = some (.ok (h1, k)))
    (hn : (data.read h).getD 0 0 ≠ PK_EDDSA) (h2 : Heap) : k.read h2 = k.read h1 := by
  cases k with
  | num k => rfl
  | ed s =>
    exfalso
    unfold deserializePrivateKeyRef at hd
    simp only at hd
    rw [if_neg hn] at hd
    generalize (if (data.read h).getD 0 0 = PK_ECDSA then Alg.ecdsa else Alg.sm2) = alg at hd
    split_ifs at hd <;> try (simp at hd; done)
    · cases hg : getCurve E ((data.read h).getD 1 0) with
      | ok c =>
        rw [hg] at hd
        simp only at hd
        split_ifs at hd <;> try (simp at hd; done)
        simp only [Option.map_eq_some_iff] at hd
        obtain ⟨r, -, hr⟩ := hd
        cases r with
        | ok p => simp only at hr; split_ifs at hr; simp at hr
        | err m => simp at hr
        | panic m => simp at hr
      | err m => rw [hg] at hd; simp at hd
      | panic m => rw [hg] at hd; simp at hd
    · simp only [Option.some.injEq] at hd
      cases hg : toECDSA E ((data.sub 1 data.len).read h) <;> rw [hg] at hd <;> simp [Res.map] at hd

/-- **C99** is false for every Ed25519 private key: writing to the input buffer afterwards replaces the key
by any other. -/
theorem C99_ed25519_shared (E : Keypair.Ext) (h : Heap) (data : Slice) (hv : data.Valid h) (draws : List ℕ)
    (h1 : Heap) (k : PrivRef) (hd : deserializePrivateKeyRef E h data draws = some (.ok (h1, k)))
    (hn : (data.read h).getD 0 0 = PK_EDDSA) (b : Bytes) (hb : b.length = data.len - 2) :
    OnlyWrote h1 (h1.store data.arr (data.off + 2) b) data ∧
      k.read (h1.store data.arr (data.off + 2) b) = some (.ed b) := by
  constructor
  · intro a ha
    exact store_mem_ne _ _ _ _ _ ha
  · unfold deserializePrivateKeyRef at hd
    simp only at hd
    by_cases c0 : data.len = 0
    · rw [if_pos c0] at hd; simp at hd
    rw [if_neg c0, if_neg (by rw [hn]; decide), if_pos hn] at hd
    split_ifs at hd <;> try (simp at hd; done)
    simp only [Option.some.injEq, Res.ok.injEq, Prod.mk.injEq] at hd
    obtain ⟨rfl, rfl⟩ := hd
    simp only [PrivRef.read, Slice.sub]
    congr 2
    have := read_store_self h data.arr (data.off + 2) b (data.cap - 2) (by have := hv.2; omega)
    rwa [hb] at this

/-- **C99** (partial) for signatures: a parsed signature stays the same, also under every key and message,
unless it is a compact one, of an ECDSA scheme and 66 bytes long. Missing: those, for which it is false
(`C99_compact_shared`). -/
theorem C99_signature_partial (h : Heap) (buf : Slice) (hv : buf.Valid h) (h1 : Heap) (s : Sig Slice)
    (hd : Signature.deserialize h buf = .ok (h1, s)) (hn : ¬ (buf.len = 66 ∧ isECDSA s.scheme = true)) (h2 : Heap)
    (hw : OnlyWrote h1 h2 buf) : s.map (bufOf h2) = s.map (bufOf h1) := by
  obtain ⟨sch, v⟩ := s
  cases v with
  | dsa r s c => rfl
  | sm2 r s c id => rfl
  | other => rfl
  | bytes t =>
    have ht : t.arr = h.next := by
      unfold Signature.deserialize at hd
      simp only at hd
      generalize hsc : (if buf.len = 64 then SHA256withECDSA else (buf.read h).getD 0 0) = scheme at hd
      have key : ∀ {α : Type} {f : α → Sig Slice} {r : Res α}, (∀ x, (f x).value ≠ .bytes t) →
          r.map (fun x => (h, f x)) = Res.ok (h1, ⟨sch, .bytes t⟩) → False := by
        intro α f r hf hr
        cases r with
        | ok x =>
          simp only [Res.map, Res.ok.injEq, Prod.mk.injEq] at hr
          exact hf x (by rw [hr.2])
        | err m => simp [Res.map] at hr
        | panic m => simp [Res.map] at hr
      split_ifs at hd with c1 c2 c3 c4 c5 c6 <;> try (simp at hd; done)
      · omega
      · exact (key (fun x => by simp) hd).elim
      · simp only [Res.ok.injEq, Prod.mk.injEq, Sig.mk.injEq] at hd
        simp only [Slice.sub] at c5
        exact absurd ⟨by omega, hd.2.1 ▸ c2⟩ hn
      · exact (key (fun x => by simp) hd).elim
      · exact (key (fun x => by simp) hd).elim
      · exact (key (fun x => by simp) hd).elim
      · simp only [Res.ok.injEq, Prod.mk.injEq, Sig.mk.injEq, Value.bytes.injEq] at hd
        rw [← hd.2.2]; rfl
      · simp only [Res.ok.injEq, Prod.mk.injEq, Sig.mk.injEq, Value.bytes.injEq] at hd
        rw [← hd.2.2]; rfl
    have : t.arr ≠ buf.arr := by have := hv.1; omega
    simp only [Sig.map, Value.map, bufOf, Slice.read, hw _ this]

/-- **C99** is false for every compact signature: writing to the input buffer afterwards replaces it. -/
theorem C99_compact_shared (h : Heap) (buf : Slice) (hv : buf.Valid h) (h1 : Heap) (s : Sig Slice)
    (hd : Signature.deserialize h buf = .ok (h1, s)) (hn : buf.len = 66 ∧ isECDSA s.scheme = true) (b : Bytes)
    (hb : b.length = 65) :
    OnlyWrote h1 (h1.store buf.arr (buf.off + 1) b) buf ∧
      (s.map (bufOf (h1.store buf.arr (buf.off + 1) b))).essence = ⟨s.scheme, .bytes b⟩ := by
  obtain ⟨hl, he⟩ := hn
  constructor
  · intro a ha
    exact store_mem_ne _ _ _ _ _ ha
  · unfold Signature.deserialize at hd
    simp only [hl, show ¬ (66 : ℕ) < 2 by decide, show ¬ (66 : ℕ) = 64 by decide, if_false] at hd
    generalize (buf.read h).getD 0 0 = scheme at hd
    have h65 : (buf.sub 1 66).len = 65 := rfl
    split_ifs at hd with c1 c2 c3 c4
    · simp only [Res.ok.injEq, Prod.mk.injEq] at hd
      obtain ⟨rfl, rfl⟩ := hd
      simp only [Sig.map, Value.map, Sig.essence, bufOf]
      congr 2
      have := read_store_self h buf.arr (buf.off + 1) b (buf.cap - 1) (by have := hv.2; omega)
      rwa [hb] at this
    · exfalso
      cases hx : deserializeDSA (((buf.sub 1 66).read h).drop (zeroIndex ((buf.sub 1 66).read h) + 1)) with
      | ok x =>
        rw [hx] at hd
        simp only [Res.map, Res.ok.injEq, Prod.mk.injEq] at hd
        rw [← hd.2] at he
        exact c1 he
      | err m => rw [hx] at hd; simp [Res.map] at hd
      | panic m => rw [hx] at hd; simp [Res.map] at hd
    · simp only [Res.ok.injEq, Prod.mk.injEq] at hd
      rw [← hd.2] at he
      exact absurd he c1

/-! ## Non-vacuity -/

/-- An Ed25519 public key is parsed. -/
example (E : Keypair.Ext) : ∃ h1 k, deserializePublicKeyRef E (heapOf (PK_EDDSA :: ED25519 :: zeros 32))
    (allOf (PK_EDDSA :: ED25519 :: zeros 32)) [] = some (.ok (h1, .ed k)) := ⟨_, _, rfl⟩

/-- An Ed25519 private key is parsed, and differs after the buffer is reused. -/
example (E : Keypair.Ext) : ∃ h1 k, deserializePrivateKeyRef E (heapOf (PK_EDDSA :: ED25519 :: zeros 64))
    (allOf (PK_EDDSA :: ED25519 :: zeros 64)) [] = some (.ok (h1, k)) ∧
    k.read (h1.store 0 2 (List.replicate 64 1)) ≠ k.read h1 := by
  refine ⟨_, _, rfl, ?_⟩
  decide +kernel

/-- A compact signature of an ECDSA scheme is parsed. -/
example : ∃ h1 s, Signature.deserialize (heapOf (1 :: zeros 65)) (allOf (1 :: zeros 65)) = .ok (h1, s) ∧
    (allOf (1 :: zeros 65)).len = 66 ∧ isECDSA s.scheme = true := ⟨_, _, rfl, rfl, rfl⟩

/-- A signature of an EdDSA scheme is parsed. -/
example : ∃ h1 s, Signature.deserialize (heapOf (10 :: zeros 64)) (allOf (10 :: zeros 64)) = .ok (h1, s) ∧
    ¬ ((allOf (10 :: zeros 64)).len = 66 ∧ isECDSA s.scheme = true) :=
  ⟨_, _, rfl, fun h => absurd h.1 (by decide)⟩

end Verif.Props
