import Verif.Model.SerialHeap
import Verif.Spec.Copies
import Verif.Lemmas.Slice
/-!
# Lemmas about serializing on the heap (C128)
-/
namespace Verif
open Spec

theorem Spec.KeptHeap.refl (h : Heap) : KeptHeap h h := ⟨le_rfl, fun _ _ => rfl⟩

theorem Spec.KeptHeap.trans {h h' h'' : Heap} (a : KeptHeap h h') (b : KeptHeap h' h'') : KeptHeap h h'' :=
  ⟨a.1.trans b.1, fun i hi => (b.2 i (hi.trans_le a.1)).trans (a.2 i hi)⟩

theorem Spec.KeptHeap.read {h h' : Heap} (k : KeptHeap h h') {s : Slice} (hs : s.arr < h.next) : s.read h' = s.read h := by
  unfold Slice.read
  rw [k.2 _ hs]

theorem Spec.KeptHeap.valid {h h' : Heap} (k : KeptHeap h h') {s : Slice} (hs : s.Valid h) : s.Valid h' :=
  ⟨hs.1.trans_le k.1, hs.2.1, by rw [k.2 _ hs.1]; exact hs.2.2⟩

theorem Spec.FreshCopy.kept {h0 h h' : Heap} {s : Slice} {b : Bytes} (c : FreshCopy h0 h s b) (k : KeptHeap h h') :
    FreshCopy h0 h' s b := ⟨k.valid c.1, c.2.1, (k.read c.1.1).trans c.2.2⟩

theorem Spec.FreshCopy.len {h0 h : Heap} {s : Slice} {b : Bytes} (c : FreshCopy h0 h s b) : s.len = b.length := by
  rw [← c.2.2]
  obtain ⟨⟨_, h2, h3⟩, _⟩ := c
  simp only [Slice.read, List.length_take, List.length_drop]
  omega

theorem kept_alloc (h : Heap) (b : Bytes) : KeptHeap h (h.alloc b).1 :=
  ⟨Nat.le_succ _, fun i hi => by simp only [Heap.alloc]; rw [if_neg (by omega)]⟩

theorem fresh_alloc (h : Heap) (b : Bytes) : FreshCopy h (h.alloc b).1 (h.alloc b).2 b :=
  ⟨⟨Nat.lt_succ_self _, le_rfl, by simp [Heap.alloc]⟩, le_rfl, by simp [Slice.read, Heap.alloc]⟩

/-- Storing into an array that was not there in `h0`. -/
theorem kept_store {h0 h : Heap} (k : KeptHeap h0 h) {a : Nat} (ha : h0.next ≤ a) (off : Nat) (b : Bytes) :
    KeptHeap h0 (h.store a off b) :=
  ⟨k.1, fun i hi => by rw [store_mem_ne _ _ _ _ _ (by omega)]; exact k.2 i hi⟩

section
variable {α β γ δ : Type} {h0 h : Heap}

theorem Spec.Outcome.bind {Q : Heap → α → β → Prop} {R : Heap → γ → δ → Prop} {p : HeapM α} {f : α → HeapM γ} {v : Res β}
    {g : β → Res δ} (hp : Outcome h0 Q (p h) v)
    (hf : ∀ h' a b, KeptHeap h0 h' → Q h' a b → Outcome h0 R (f a h') (g b)) :
    Outcome h0 R ((p >>= f) h) (v.bind g) := by
  show Outcome h0 R (HeapM.bind p f h) _
  unfold HeapM.bind
  unfold Outcome at hp
  revert hp
  rcases p h with ⟨h', a⟩ | m | m <;> rcases v with b | m' | m' <;> intro hp <;> try exact hp.elim
  · exact hf h' a b hp.1 hp.2
  · exact hp
  · exact hp

/-- The same where the value is computed without the heap. -/
theorem Spec.Outcome.bind_ok {Q : Heap → α → Prop} {R : Heap → γ → δ → Prop} {p : HeapM α} {f : α → HeapM γ} {w : Res δ}
    (hp : ∃ h' a, p h = .ok (h', a) ∧ KeptHeap h0 h' ∧ Q h' a)
    (hf : ∀ h' a, KeptHeap h0 h' → Q h' a → Outcome h0 R (f a h') w) : Outcome h0 R ((p >>= f) h) w := by
  obtain ⟨h', a, e, k, q⟩ := hp
  show Outcome h0 R (HeapM.bind p f h) _
  unfold HeapM.bind
  rw [e]
  exact hf h' a k q

theorem Spec.Outcome.ret {Q : Heap → α → β → Prop} {a : α} {b : β} (k : KeptHeap h0 h) (q : Q h a b) :
    Outcome h0 Q ((Pure.pure a : HeapM α) h) (.ok b) := ⟨k, q⟩

/-- A computation that started later. -/
theorem Spec.Outcome.rebase {Q Q' : Heap → α → β → Prop} {r : Res (Heap × α)} {v : Res β} (k : KeptHeap h0 h)
    (hr : Outcome h Q r v) (hq : ∀ h' a b, KeptHeap h h' → Q h' a b → Q' h' a b) : Outcome h0 Q' r v := by
  unfold Outcome at hr ⊢
  rcases r with ⟨h', a⟩ | m | m <;> rcases v with b | m' | m' <;> try exact hr.elim
  · exact ⟨k.trans hr.1, hq _ _ _ hr.1 hr.2⟩
  · exact hr
  · exact hr

theorem Spec.Outcome.mono {Q Q' : Heap → α → β → Prop} {r : Res (Heap × α)} {v : Res β}
    (hr : Outcome h Q r v) (hq : ∀ h' a b, KeptHeap h h' → Q h' a b → Q' h' a b) : Outcome h Q' r v :=
  hr.rebase (KeptHeap.refl h) hq

theorem Spec.Outcome.map {Q : Heap → α → β → Prop} {r : Res (Heap × α)} {v : Res β} {g : β → δ}
    (hr : Outcome h (fun h' a b => ∀ d, d = g b → Q h' a b) r v) :
    Outcome h (fun h' a d => ∃ b, d = g b ∧ Q h' a b) r (v.map g) := by
  unfold Outcome at hr ⊢
  rcases r with ⟨h', a⟩ | m | m <;> rcases v with b | m' | m' <;> try exact hr.elim
  · exact ⟨hr.1, b, rfl, hr.2 _ rfl⟩
  · exact hr
  · exact hr

end

theorem res_bind_ok {α β : Type} (v : Res α) (g : α → β) : v.map g = v.bind fun b => .ok (g b) := by cases v <;> rfl

theorem outcome_panic {α β : Type} {h0 h : Heap} {Q : Heap → α → β → Prop} (m : String) :
    Outcome h0 Q ((HeapM.lift (.panic m) : HeapM α) h) (.panic m) := rfl

theorem outcome_err {α β : Type} {h0 h : Heap} {Q : Heap → α → β → Prop} (m : String) :
    Outcome h0 Q ((HeapM.lift (.err m) : HeapM α) h) (.err m) := rfl

theorem outcome_lift {α : Type} {h0 h : Heap} (k : KeptHeap h0 h) (r : Res α) :
    Outcome h0 (fun h' a b => h' = h ∧ a = b) (HeapM.lift r h) r := by
  cases r with
  | ok a => exact ⟨k, rfl, rfl⟩
  | err m => rfl
  | panic m => rfl

/-! ## Buffers -/

/-- A `bytes.Buffer` with the contents `b`: still empty, or in an array that was not there in `h0`. -/
def BufAt (h0 h : Heap) (s : Slice) (b : Bytes) : Prop := s = Buffer.empty ∧ b = [] ∨ FreshCopy h0 h s b

theorem BufAt.kept {h0 h h' : Heap} {s : Slice} {b : Bytes} (c : BufAt h0 h s b) (k : KeptHeap h h') : BufAt h0 h' s b :=
  c.imp_right fun c => c.kept k

theorem BufAt.fresh {h0 h : Heap} {s : Slice} {b : Bytes} (c : BufAt h0 h s b) (hb : b ≠ []) : FreshCopy h0 h s b :=
  c.resolve_left fun h => hb h.2

theorem bufAt_empty (h0 h : Heap) : BufAt h0 h Buffer.empty [] := .inl ⟨rfl, rfl⟩

theorem read_store_append {h : Heap} {s : Slice} (p : Bytes) (hv : s.Valid h) (hp : s.len + p.length ≤ s.cap) :
    Slice.read (h.store s.arr (s.off + s.len) p) { s with len := s.len + p.length } = s.read h ++ p := by
  obtain ⟨_, h1, h2⟩ := hv
  apply List.ext_getElem?
  intro i
  simp only [Slice.read, store_mem_eq]
  have hl := splice_length (h.mem s.arr) (s.off + s.len) p (by omega)
  rw [List.getElem?_append]
  have hr : (((h.mem s.arr).drop s.off).take s.len).length = s.len := by
    simp only [List.length_take, List.length_drop]; omega
  rw [hr]
  by_cases hi : i < s.len + p.length
  · rw [List.getElem?_take_of_lt hi, List.getElem?_drop, getElem?_splice _ _ _ (by omega)]
    by_cases hi2 : i < s.len
    · rw [if_neg (by omega), if_pos hi2, List.getElem?_take_of_lt hi2, List.getElem?_drop]
    · rw [if_pos (by omega), if_neg hi2]
      congr 1
      omega
  · rw [List.getElem?_eq_none (by simp only [List.length_take]; omega), if_neg (by omega),
      List.getElem?_eq_none (by omega)]

theorem buffer_write {h0 h : Heap} {s : Slice} {b : Bytes} (k : KeptHeap h0 h) (c : BufAt h0 h s b) (grow : Nat → Nat)
    (p : Bytes) : ∃ h' s', Buffer.write grow s p h = .ok (h', s') ∧ KeptHeap h0 h' ∧ BufAt h0 h' s' (b ++ p) := by
  have hread : s.read h = b := by
    rcases c with ⟨rfl, rfl⟩ | c
    · simp [Slice.read, Buffer.empty]
    · exact c.2.2
  have hlen : s.len = b.length := by
    rcases c with ⟨rfl, rfl⟩ | c
    · rfl
    · exact c.len
  unfold Buffer.write
  split
  · rename_i hc
    rcases c with ⟨rfl, rfl⟩ | c
    · have hp : p = [] := by
        simp only [Buffer.empty] at hc
        exact List.length_eq_zero_iff.mp (by omega)
      subst hp
      refine ⟨_, _, rfl, ⟨k.1, fun i hi => ?_⟩, .inl ⟨rfl, rfl⟩⟩
      rw [← k.2 i hi]
      simp only [Heap.store]
      split
      · simp [splice]
      · rfl
    · refine ⟨_, _, rfl, kept_store k c.2.1 _ _, .inr ⟨⟨c.1.1, hc, ?_⟩, c.2.1, ?_⟩⟩
      · rw [store_mem_eq, splice_length _ _ _ (by have := c.1.2.2; omega)]
        exact c.1.2.2
      · rw [read_store_append p c.1 hc, c.2.2]
  · refine ⟨_, _, rfl, k.trans (kept_alloc h _), .inr ⟨⟨Nat.lt_succ_self _, ?_, ?_⟩, k.1, ?_⟩⟩
    · simp only [Heap.alloc, List.length_append, hread, hlen]; omega
    · simp [Heap.alloc]
    · rw [hread, hlen, ← List.length_append]
      simp [Slice.read, Heap.alloc, List.take_append]

/-- What writing into a buffer leaves alone: all arrays except its own; and the buffer moves only into a new array. -/
def Frame (h : Heap) (s : Slice) (h' : Heap) (s' : Slice) : Prop :=
  h.next ≤ h'.next ∧ (s'.arr = s.arr ∨ h.next ≤ s'.arr) ∧ ∀ a, a < h.next → a ≠ s.arr → h'.mem a = h.mem a

theorem Frame.refl (h : Heap) (s : Slice) : Frame h s h s := ⟨le_rfl, .inl rfl, fun _ _ _ => rfl⟩

theorem Frame.trans {h h' h'' : Heap} {s s' s'' : Slice} (f : Frame h s h' s') (g : Frame h' s' h'' s'') :
    Frame h s h'' s'' := by
  obtain ⟨f1, f2, f3⟩ := f
  obtain ⟨g1, g2, g3⟩ := g
  refine ⟨f1.trans g1, by omega, fun a ha hs => ?_⟩
  rw [g3 a (by omega) (by omega), f3 a ha hs]

theorem buffer_write_frame {grow : Nat → Nat} {h h' : Heap} {s s' : Slice} {p : Bytes}
    (e : Buffer.write grow s p h = .ok (h', s')) : Frame h s h' s' := by
  unfold Buffer.write at e
  split at e
  · cases e
    exact ⟨le_rfl, .inl rfl, fun a _ ha => store_mem_ne _ _ _ _ _ ha⟩
  · cases e
    exact ⟨Nat.le_succ _, .inr le_rfl, fun a ha _ => by simp only [Heap.alloc]; rw [if_neg (by omega)]⟩

theorem outcome_write {γ δ : Type} {h0 h : Heap} {R : Heap → γ → δ → Prop} {s : Slice} {b : Bytes} (k : KeptHeap h0 h)
    (c : BufAt h0 h s b) (grow : Nat → Nat) (p : Bytes) {f : Slice → HeapM γ} {w : Res δ}
    (hf : ∀ h' s', KeptHeap h0 h' → BufAt h0 h' s' (b ++ p) → Outcome h0 R (f s' h') w) :
    Outcome h0 R ((Buffer.write grow s p >>= f) h) w :=
  Outcome.bind_ok (Q := fun h' s' => BufAt h0 h' s' (b ++ p)) (buffer_write k c grow p) hf

theorem outcome_write_last {h0 h : Heap} {s : Slice} {b : Bytes} (k : KeptHeap h0 h)
    (c : BufAt h0 h s b) (grow : Nat → Nat) (p : Bytes) (hn : b ++ p ≠ []) {w : Bytes} (hw : w = b ++ p) :
    Outcome h0 (FreshCopy h0) (Buffer.write grow s p h) (.ok w) := by
  obtain ⟨h', s', e, k', c'⟩ := buffer_write k c grow p
  rw [e, hw]
  exact ⟨k', c'.fresh hn⟩

theorem outcome_read {γ δ : Type} {h0 h : Heap} {R : Heap → γ → δ → Prop} {s : Slice} {b : Bytes} (k : KeptHeap h0 h)
    (e : s.read h = b) {f : Bytes → HeapM γ} {w : Res δ} (hf : Outcome h0 R (f b h) w) :
    Outcome h0 R ((HeapM.read s >>= f) h) w :=
  Outcome.bind_ok (Q := fun h' a => h' = h ∧ a = b) ⟨h, b, by rw [HeapM.read, e], k, rfl, rfl⟩
    fun h' a _ q => by rw [q.1, q.2]; exact hf

theorem outcome_new {γ δ : Type} {h0 h : Heap} {R : Heap → γ → δ → Prop} (k : KeptHeap h0 h) (b : Bytes)
    {f : Slice → HeapM γ} {w : Res δ}
    (hf : ∀ h' s', KeptHeap h h' → FreshCopy h h' s' b → Outcome h0 R (f s' h') w) :
    Outcome h0 R ((HeapM.new b >>= f) h) w :=
  Outcome.bind_ok (Q := fun h' a => KeptHeap h h' ∧ FreshCopy h h' a b)
    ⟨_, _, rfl, k.trans (kept_alloc h b), kept_alloc h b, fresh_alloc h b⟩ fun h' a _ q => hf h' a q.1 q.2

/-! ## Filling an array that has just been made -/

/-- The slice is a whole array that was not there in `h0`. -/
def Whole (h0 h : Heap) (s : Slice) (b : Bytes) : Prop :=
  h0.next ≤ s.arr ∧ s.arr < h.next ∧ s.off = 0 ∧ s.len = b.length ∧ s.cap = b.length ∧ h.mem s.arr = b

theorem Whole.fresh {h0 h : Heap} {s : Slice} {b : Bytes} (w : Whole h0 h s b) : FreshCopy h0 h s b := by
  obtain ⟨w1, w2, w3, w4, w5, w6⟩ := w
  exact ⟨⟨w2, by omega, by rw [w6, w3, w5]; omega⟩, w1, by simp [Slice.read, w3, w4, w6]⟩

theorem Whole.fresh_sub {h0 h : Heap} {s : Slice} {b : Bytes} (w : Whole h0 h s b) {n : Nat} (hn : n ≤ b.length) :
    FreshCopy h0 h (s.sub 0 n) (b.take n) := by
  obtain ⟨w1, w2, w3, w4, w5, w6⟩ := w
  refine ⟨⟨w2, ?_, ?_⟩, w1, ?_⟩
  · simp only [Slice.sub, w5]; omega
  · simp only [Slice.sub, w6, w3, w5]; omega
  · simp [Slice.read, Slice.sub, w3, w6]

theorem outcome_make {γ δ : Type} {h0 h : Heap} {R : Heap → γ → δ → Prop} (k : KeptHeap h0 h) (b : Bytes)
    {f : Slice → HeapM γ} {w : Res δ}
    (hf : ∀ h' s', KeptHeap h0 h' → Whole h0 h' s' b → Outcome h0 R (f s' h') w) :
    Outcome h0 R ((HeapM.new b >>= f) h) w :=
  Outcome.bind_ok (Q := fun h' a => Whole h0 h' a b)
    ⟨_, _, rfl, k.trans (kept_alloc h b), k.1, Nat.lt_succ_self _, rfl, rfl, rfl, by simp [Heap.alloc]⟩ hf

theorem outcome_copy {γ δ : Type} {h0 h : Heap} {R : Heap → γ → δ → Prop} {s : Slice} {b : Bytes} (k : KeptHeap h0 h)
    (c : Whole h0 h s b) (i : Nat) (p : Bytes) (hi : i + p.length ≤ b.length) {f : Unit → HeapM γ} {w : Res δ}
    (hf : ∀ h', KeptHeap h0 h' → Whole h0 h' s (splice b i p) → Outcome h0 R (f () h') w) :
    Outcome h0 R ((HeapM.copy s i p >>= f) h) w := by
  refine Outcome.bind_ok (Q := fun h' _ => Whole h0 h' s (splice b i p)) ⟨_, _, rfl, kept_store k c.1 _ _, ?_⟩
    fun h' _ => hf h'
  obtain ⟨w1, w2, w3, w4, w5, w6⟩ := c
  have hl := splice_length b i p hi
  exact ⟨w1, w2, w3, by omega, by omega, by rw [store_mem_eq, w6, w3, Nat.zero_add]⟩

namespace Keypair
open Verif.EC

theorem encode_outcome {h0 h : Heap} (k : KeptHeap h0 h) (key : ECPub) (compressed : Bool) :
    Outcome h0 (FreshCopy h0) (encodePublicKeyRef key compressed h) (encodePublicKey (some key) compressed) := by
  unfold encodePublicKeyRef encodePublicKey
  dsimp only
  have hz : ∀ n, (zeros n).length = n := fun n => List.length_replicate
  refine outcome_make k _ fun h1 buf k1 w1 => ?_
  split
  · exact outcome_panic _
  · rename_i hx
    have hl1 : (splice (zeros (key.curve.byteSize * 2 + 1)) (key.curve.byteSize + 1 - (bytesOfNat key.x).length)
        (bytesOfNat key.x)).length = key.curve.byteSize * 2 + 1 := by
      rw [splice_length _ _ _ (by rw [hz]; omega), hz]
    refine outcome_copy k1 w1 _ _ (by rw [hz]; omega) fun h2 k2 w2 => ?_
    split
    · refine outcome_copy k2 w2 _ _ (by rw [hl1]; simp) fun h3 k3 w3 => ?_
      exact ⟨k3, w3.fresh_sub (by rw [splice_length _ _ _ (by rw [hl1]; simp), hl1]; omega)⟩
    · refine outcome_copy k2 w2 _ _ (by rw [hl1]; simp) fun h3 k3 w3 => ?_
      split
      · exact outcome_panic _
      · refine outcome_copy k3 w3 _ _ (by rw [splice_length _ _ _ (by rw [hl1]; simp), hl1]; omega) fun h4 k4 w4 => ?_
        exact ⟨k4, w4.fresh⟩

theorem writeAlg_outcome {γ δ : Type} {h0 h : Heap} {R : Heap → γ → δ → Prop} (k : KeptHeap h0 h) (grow : Nat → Nat)
    (alg : Alg) {f : Slice → HeapM γ} {w : Res δ}
    (hf : ∀ h' s', KeptHeap h0 h' → BufAt h0 h' s' (match alg with
        | .ecdsa => [PK_ECDSA]
        | .sm2 => [PK_SM2]
        | .other _ => []) → Outcome h0 R (f s' h') w) :
    Outcome h0 R ((writeAlg grow alg Buffer.empty >>= f) h) w := by
  cases alg with
  | ecdsa => exact outcome_write k (bufAt_empty h0 h) grow _ hf
  | sm2 => exact outcome_write k (bufAt_empty h0 h) grow _ hf
  | other n => exact hf h _ k (bufAt_empty h0 h)

theorem writeZeros_outcome {γ δ : Type} {h0 : Heap} {R : Heap → γ → δ → Prop} (grow : Nat → Nat)
    {f : Slice → HeapM γ} {w : Res δ} : ∀ (n : Nat) {h : Heap} {s : Slice} {b : Bytes}, KeptHeap h0 h → BufAt h0 h s b →
    (∀ h' s', KeptHeap h0 h' → BufAt h0 h' s' (b ++ zeros n) → Frame h s h' s' → Outcome h0 R (f s' h') w) →
    Outcome h0 R ((writeZeros grow n s >>= f) h) w
  | 0, h, s, b, k, c, hf => hf h s k (by simpa [zeros] using c) (Frame.refl h s)
  | n + 1, h, s, b, k, c, hf => by
    obtain ⟨h', s', e, k', c'⟩ := buffer_write k c grow [0]
    have e2 : ((writeZeros grow (n + 1) s >>= f) h) = ((writeZeros grow n s' >>= f) h') := by
      show HeapM.bind (HeapM.bind (Buffer.write grow s [0]) fun s => writeZeros grow n s) f h = HeapM.bind _ f h'
      unfold HeapM.bind
      rw [e]
    rw [e2]
    refine writeZeros_outcome grow n k' c' fun h2 s2 k2 c2 f2 => hf h2 s2 k2 ?_ ((buffer_write_frame e).trans f2)
    have ez : b ++ [0] ++ zeros n = b ++ zeros (n + 1) := by
      rw [List.append_assoc]
      rfl
    rwa [ez] at c2

/-- Encode the key and write it to the buffer. -/
theorem encode_write {h0 h : Heap} {s : Slice} {b : Bytes} (k : KeptHeap h0 h) (c : BufAt h0 h s b) (hb : b ≠ [])
    (grow : Nat → Nat) (key : ECPub) :
    Outcome h0 (FreshCopy h0) ((do
      let e ← encodePublicKeyRef key true
      let p ← HeapM.read e
      Buffer.write grow s p : HeapM Slice) h) ((encodePublicKey (some key) true).map fun e => b ++ e) := by
  rw [res_bind_ok]
  refine Outcome.bind (Q := fun h' e p => BufAt h0 h' s b ∧ e.read h' = p)
    (Outcome.rebase k (encode_outcome (KeptHeap.refl h) key true) fun h' e p k' q => ⟨c.kept k', q.2.2⟩) ?_
  intro h' e p k' q
  refine outcome_read k' q.2 ?_
  exact outcome_write_last k' q.1 grow p (by simp [hb]) rfl

theorem serializePub_outcome (E : Ext) (grow : Nat → Nat) (h : Heap) (key : PubRef)
    (hv : ∀ s, key = .ed s → s.Valid h) :
    Outcome h (FreshCopy h) (serializePublicKeyRef E grow key h) (serializePublicKey E (key.read h)) := by
  have k := KeptHeap.refl h
  rcases key with key | s
  · rcases key with ⟨alg, pub⟩ | b | pub | _
    · unfold serializePublicKeyRef PubRef.read serializePublicKey
      dsimp only
      split
      · exact encode_outcome k pub true
      · refine writeAlg_outcome k grow alg fun h1 s1 k1 c1 => ?_
        unfold writeLabel
        cases getCurveLabel E pub.curve with
        | err m => exact (rfl : m = m)
        | panic m => exact (rfl : m = m)
        | ok label =>
          refine outcome_write k1 c1 grow [label] fun h2 s2 k2 c2 => ?_
          exact encode_write k2 c2 (by simp) grow pub
    · unfold serializePublicKeyRef PubRef.read serializePublicKey
      refine outcome_write k (bufAt_empty h h) grow _ fun h1 s1 k1 c1 => ?_
      refine outcome_write k1 c1 grow _ fun h2 s2 k2 c2 => ?_
      exact outcome_write_last k2 c2 grow b (by simp) (by simp)
    · unfold serializePublicKeyRef PubRef.read serializePublicKey
      dsimp only
      generalize fromECDSAPub pub = q
      refine outcome_write k (bufAt_empty h h) grow _ fun h1 s1 k1 c1 => ?_
      exact outcome_write_last k1 c1 grow q (by simp) (by simp)
    · exact outcome_panic _
  · unfold serializePublicKeyRef PubRef.read serializePublicKey
    refine outcome_write k (bufAt_empty h h) grow _ fun h1 s1 k1 c1 => ?_
    refine outcome_write k1 c1 grow _ fun h2 s2 k2 c2 => ?_
    refine outcome_read k2 (k2.read (hv s rfl).1) ?_
    exact outcome_write_last k2 c2 grow _ (by simp) (by simp)

theorem serializePriv_outcome (E : Ext) (grow : Nat → Nat) (h : Heap) (key : PrivRef)
    (hv : ∀ s, key = .ed s → s.Valid h) :
    Outcome h (FreshCopy h) (serializePrivateKeyRef E grow key h)
      (match key.read h with
      | some key => serializePrivateKey E key
      | none => .panic "unkown private key type") := by
  have k := KeptHeap.refl h
  rcases key with key | s
  · rcases key with _ | ⟨alg, priv⟩ | b | priv | _
    · exact outcome_panic _
    · unfold serializePrivateKeyRef PrivRef.read serializePrivateKey
      dsimp only
      refine writeAlg_outcome k grow alg fun h1 s1 k1 c1 => ?_
      unfold writeLabel
      cases getCurveLabel E priv.pub.curve with
      | err m => exact (rfl : m = m)
      | panic m => exact (rfl : m = m)
      | ok label =>
        refine outcome_write k1 c1 grow [label] fun h2 s2 k2 c2 => ?_
        refine outcome_new k2 (bytesOfNat priv.D) fun hd d kd cd => ?_
        rw [cd.len]
        refine writeZeros_outcome grow _ (k2.trans kd) (c2.kept kd) fun h3 s3 k3 c3 f3 => ?_
        have hs2 := (c2.fresh (by simp)).1.1
        have hd3 : d.read h3 = bytesOfNat priv.D := by
          have := cd.2.1
          rw [← cd.2.2, Slice.read, Slice.read, f3.2.2 d.arr cd.1.1 (by omega)]
        refine outcome_read k3 hd3 ?_
        refine outcome_write k3 c3 grow _ fun h4 s4 k4 c4 => ?_
        exact encode_write k4 c4 (by simp) grow priv.pub
    · unfold serializePrivateKeyRef PrivRef.read serializePrivateKey
      refine outcome_write k (bufAt_empty h h) grow _ fun h1 s1 k1 c1 => ?_
      refine outcome_write k1 c1 grow _ fun h2 s2 k2 c2 => ?_
      exact outcome_write_last k2 c2 grow b (by simp) (by simp)
    · unfold serializePrivateKeyRef PrivRef.read serializePrivateKey
      dsimp only
      generalize fromECDSA priv = q
      refine outcome_write k (bufAt_empty h h) grow _ fun h1 s1 k1 c1 => ?_
      exact outcome_write_last k1 c1 grow q (by simp) (by simp)
    · exact outcome_panic _
  · unfold serializePrivateKeyRef PrivRef.read serializePrivateKey
    refine outcome_write k (bufAt_empty h h) grow _ fun h1 s1 k1 c1 => ?_
    refine outcome_write k1 c1 grow _ fun h2 s2 k2 c2 => ?_
    refine outcome_read k2 (k2.read (hv s rfl).1) ?_
    exact outcome_write_last k2 c2 grow _ (by simp) (by simp)

theorem HeapM.bind_ok {α β : Type} {p : HeapM α} {f : α → HeapM β} {h : Heap} {r : Heap × β} (e : (p >>= f) h = .ok r) :
    ∃ h1 a, p h = .ok (h1, a) ∧ f a h1 = .ok r := by
  change HeapM.bind p f h = .ok r at e
  unfold HeapM.bind at e
  revert e
  rcases p h with ⟨h1, a⟩ | m | m <;> intro e
  · exact ⟨h1, a, rfl, e⟩
  · cases e
  · cases e

theorem writeZeros_frame {grow : Nat → Nat} : ∀ (n : Nat) {h h' : Heap} {s s' : Slice},
    writeZeros grow n s h = .ok (h', s') → Frame h s h' s'
  | 0, h, h', s, s', e => by cases e; exact Frame.refl h s
  | n + 1, h, h', s, s', e => by
    obtain ⟨h1, s1, e1, e2⟩ := HeapM.bind_ok e
    exact (buffer_write_frame e1).trans (writeZeros_frame n e2)

theorem buffer_write_arr {grow : Nat → Nat} {h h' : Heap} {s s' : Slice} {p : Bytes} (hp : p ≠ [])
    (hs : s.cap = 0 ∨ s.arr < h.next) (e : Buffer.write grow s p h = .ok (h', s')) : s'.arr < h'.next := by
  have hl := List.length_pos_iff.2 hp
  unfold Buffer.write at e
  split at e
  · cases e
    exact hs.resolve_left (by omega)
  · cases e
    exact Nat.lt_succ_self _

/-- `SerializePrivateKey` leaves the bytes of the private number in an array of its own. -/
theorem serializePriv_left {E : Ext} {grow : Nat → Nat} {h h' : Heap} {alg : Alg} {priv : ECPriv} {s : Slice}
    (e : serializePrivateKeyRef E grow (.num (some (.ec alg priv))) h = .ok (h', s)) :
    ∃ a, h.next ≤ a ∧ a < h'.next ∧ a ≠ s.arr ∧ h'.mem a = bytesOfNat priv.D := by
  unfold serializePrivateKeyRef at e
  obtain ⟨h1, s1, e1, e⟩ := HeapM.bind_ok e
  obtain ⟨h2, s2, e2, e⟩ := HeapM.bind_ok e
  obtain ⟨h3, d, e3, e⟩ := HeapM.bind_ok e
  obtain ⟨h4, s4, e4, e⟩ := HeapM.bind_ok e
  obtain ⟨h5, b5, e5, e⟩ := HeapM.bind_ok e
  obtain ⟨h6, s6, e6, e⟩ := HeapM.bind_ok e
  obtain ⟨h7, c7, e7, e⟩ := HeapM.bind_ok e
  obtain ⟨h8, b8, e8, e⟩ := HeapM.bind_ok e
  have f1 : Frame h Buffer.empty h1 s1 ∧ (s1.cap = 0 ∨ s1.arr < h1.next) := by
    cases alg with
    | ecdsa => exact ⟨buffer_write_frame e1, .inr (buffer_write_arr (by simp) (.inl rfl) e1)⟩
    | sm2 => exact ⟨buffer_write_frame e1, .inr (buffer_write_arr (by simp) (.inl rfl) e1)⟩
    | other b => cases e1; exact ⟨Frame.refl _ _, .inl rfl⟩
  have f2 : Frame h1 s1 h2 s2 ∧ s2.arr < h2.next := by
    unfold writeLabel at e2
    cases hc : getCurveLabel E priv.pub.curve with
    | ok label =>
      rw [hc] at e2
      exact ⟨buffer_write_frame e2, buffer_write_arr (by simp) f1.2 e2⟩
    | err m => rw [hc] at e2; cases e2
    | panic m => rw [hc] at e2; cases e2
  obtain ⟨rfl, rfl⟩ : (h2.alloc (bytesOfNat priv.D)).1 = h3 ∧ (h2.alloc (bytesOfNat priv.D)).2 = d :=
    ⟨congrArg Prod.fst (Res.ok.inj e3), congrArg Prod.snd (Res.ok.inj e3)⟩
  have f4 := writeZeros_frame _ e4
  cases e5
  have f6 := buffer_write_frame e6
  have k7 : KeptHeap h6 h7 := by
    have q := encode_outcome (KeptHeap.refl h6) priv.pub true
    rw [e7] at q
    revert q
    generalize encodePublicKey (some priv.pub) true = v
    intro q
    rcases v with v | m | m
    · exact q.1
    · exact q.elim
    · exact q.elim
  cases e8
  have f9 := buffer_write_frame e
  have n3 : (h2.alloc (bytesOfNat priv.D)).1.next = h2.next + 1 := rfl
  have m3 : (h2.alloc (bytesOfNat priv.D)).1.mem h2.next = bytesOfNat priv.D := if_pos rfl
  obtain ⟨⟨f11, f12, f13⟩, _⟩ := f1
  obtain ⟨⟨f21, f22, f23⟩, f24⟩ := f2
  obtain ⟨f41, f42, f43⟩ := f4
  obtain ⟨f61, f62, f63⟩ := f6
  obtain ⟨k71, k72⟩ := k7
  obtain ⟨f91, f92, f93⟩ := f9
  refine ⟨h2.next, by omega, by omega, by omega, ?_⟩
  rw [f93 _ (by omega) (by omega), k72 _ (by omega), f63 _ (by omega) (by omega), f43 _ (by omega) (by omega), m3]

/-! ### Encryption -/

theorem kdf_outcome {h0 h : Heap} (k : KeptHeap h0 h) (X : ProtExt) (pwd : Bytes) {salt : Slice} {b : Bytes}
    (hs : salt.read h = b) (param : ScryptParam) :
    Outcome h0 (fun h' s d => KeptHeap h h' ∧ FreshCopy h h' s d) (kdfRef X pwd salt param h) (kdf X pwd b param) := by
  unfold kdfRef
  refine outcome_read k hs ?_
  have e : kdf X pwd b param = (kdf X pwd b param).bind .ok := by cases kdf X pwd b param <;> rfl
  suffices h : Outcome h0 (fun h' s d => KeptHeap h h' ∧ FreshCopy h h' s d)
      ((HeapM.lift (kdf X pwd b param) >>= fun dkey => HeapM.new dkey) h) ((kdf X pwd b param).bind .ok) by
    rwa [← e] at h
  refine Outcome.bind (outcome_lift k (kdf X pwd b param)) ?_
  rintro h' a d k' ⟨rfl, rfl⟩
  exact ⟨k.trans (kept_alloc h' a), kept_alloc h' a, fresh_alloc h' a⟩

theorem sub_read_all {h : Heap} {s : Slice} {b : Bytes} (e : s.read h = b) (hl : s.len = b.length) (i : Nat) :
    (s.sub i s.len).read h = b.drop i := by
  rw [← e]
  simp only [Slice.read, Slice.sub, List.drop_take, List.drop_drop]

theorem sub_read_first {h : Heap} {s : Slice} {b : Bytes} (e : s.read h = b) (hl : s.len = b.length) {i : Nat}
    (hi : i ≤ s.len) : (s.sub 0 i).read h = b.take i := by
  rw [← e]
  simp only [Slice.read, Slice.sub, List.take_take, Nat.add_zero, Nat.sub_zero, Nat.min_eq_left hi]

/-- The plaintext of a key, as the model without memory has it. -/
def plainOf : Option PrivateKey → Res (Bytes × String × String)
  | some (.ec .ecdsa t) => .ok (bytesOfNat t.D, "ECDSA", t.pub.curve.name)
  | some (.ec .sm2 t) => .ok (bytesOfNat t.D, "SM2", t.pub.curve.name)
  | some (.ec (.other _) _) => .panic "unsupported ec algorithm"
  | some (.ed b) => .ok (b, "Ed25519", "")
  | some (.eth _) => .panic "unsupported key type"
  | some .unknown => .panic "unsupported key type"
  | none => .panic "unsupported key type"

theorem plaintext_outcome {h0 h : Heap} (k : KeptHeap h0 h) (key : PrivRef) (hv : ∀ s, key = .ed s → s.arr < h0.next) :
    Outcome h0 (fun h' p q => KeptHeap h h' ∧ p.1.read h' = q.1 ∧ p.2 = q.2) (plaintextRef key h)
      (plainOf (key.read h0)) := by
  rcases key with key | s
  · rcases key with _ | ⟨alg, t⟩ | b | t | _
    · exact outcome_panic _
    · cases alg with
      | ecdsa => exact outcome_new k _ fun h' s' k' c => ⟨k.trans k', k', c.2.2, rfl⟩
      | sm2 => exact outcome_new k _ fun h' s' k' c => ⟨k.trans k', k', c.2.2, rfl⟩
      | other n => exact outcome_panic _
    · exact outcome_new k _ fun h' s' k' c => ⟨k.trans k', k', c.2.2, rfl⟩
    · exact outcome_panic _
    · exact outcome_panic _
  · exact ⟨k, KeptHeap.refl h, k.read (hv s rfl), rfl⟩

theorem encrypt_eq (X : ProtExt) (pri : PrivateKey) (addr pwd : Bytes) (param : ScryptParam) (salt : Res Bytes) :
    encryptWithCustomScrypt X pri addr pwd param salt = salt.bind fun salt => (kdf X pwd salt param).bind fun dkey =>
      if dkey.length < 32 then .panic "slice bounds out of range"
      else (plainOf (some pri)).bind fun p =>
        if aesKeyOk (ekeyOf dkey) then
          .ok { address := addr, encAlg := "aes-256-gcm", key := X.gcmSeal (ekeyOf dkey) (dkey.take 12) p.1 addr,
                alg := p.2.1, salt := salt, curve := p.2.2 }
        else .err "invalid key size" := by
  unfold encryptWithCustomScrypt
  cases salt with
  | err m => rfl
  | panic m => rfl
  | ok salt =>
    dsimp only [Res.bind]
    cases kdf X pwd salt param with
    | err m => rfl
    | panic m => rfl
    | ok dkey =>
      dsimp only [Res.bind]
      split
      · rfl
      · rcases pri with ⟨alg, t⟩ | b | t | _
        · cases alg <;> rfl
        · rfl
        · rfl
        · rfl

theorem encrypt_outcome (X : ProtExt) {h0 h : Heap} (k0 : KeptHeap h0 h) (key : PrivRef) (v : PrivateKey)
    (hk : key.read h = some v) (hv : ∀ s, key = .ed s → s.Valid h) (addr pwd : Bytes) (param : ScryptParam)
    (salt : Res Bytes) :
    Outcome h0 (ProtAt h0) (encryptRef X key addr pwd param salt h) (encryptWithCustomScrypt X v addr pwd param salt) := by
  rw [encrypt_eq]
  refine Outcome.rebase k0 (?_ : Outcome h (ProtAt h) _ _) fun h' a b k' q =>
    ⟨q.1, ⟨q.2.1.1, k0.1.trans q.2.1.2.1, q.2.1.2.2⟩, ⟨q.2.2.1.1, k0.1.trans q.2.2.1.2.1, q.2.2.1.2.2⟩, q.2.2.2⟩
  have k := KeptHeap.refl h
  unfold encryptRef
  refine Outcome.bind (outcome_lift k salt) ?_
  rintro h1 salt salt' - ⟨rfl, rfl⟩
  refine outcome_new k _ fun h2 s2 k2 c2 => ?_
  refine Outcome.bind (kdf_outcome k2 X pwd c2.2.2 param) fun h3 dkey d k3 q3 => ?_
  obtain ⟨k3', c3⟩ := q3
  rw [c3.len]
  split
  · exact outcome_panic _
  · rename_i hd
    have hp := plaintext_outcome k3 key (fun s e => (hv s e).1)
    rw [hk] at hp
    refine Outcome.bind hp fun h4 p q k4 q4 => ?_
    have c3' := c3.kept q4.1
    have hl := c3'.len
    refine outcome_read k4 (b := ekeyOf d) ?_ ?_
    · rw [← hl]
      rw [sub_read_all c3'.2.2 hl, hl]
      rfl
    split
    · refine outcome_read k4 (sub_read_first c3'.2.2 hl (by omega)) ?_
      refine outcome_read k4 q4.2.1 ?_
      refine outcome_new k4 _ fun h5 s5 k5 c5 => ?_
      have c2' := ((c2.kept k3').kept q4.1).kept k5
      refine ⟨k4.trans k5, ?_, ⟨c5.1, k4.1.trans c5.2.1, c5.2.2⟩, c2', ?_⟩
      · unfold ProtRef.read
        dsimp only
        rw [c5.2.2, c2'.2.2, q4.2.2]
      · have h1 := c5.2.1
        have h2 := ((c2.kept k3').kept q4.1).1.1
        dsimp only
        omega
    · exact outcome_err _

theorem decryptBody_eq (X : ProtExt) (prot : ProtectedKey) (pwd : Bytes) (param : ScryptParam) :
    decryptBody X prot pwd param =
      if prot.encAlg = "aes-256-gcm" then (kdf X pwd prot.salt param).bind fun dkey =>
        if dkey.length < 32 then .panic "slice bounds out of range"
        else if aesKeyOk (ekeyOf dkey) then
          match X.gcmOpen (ekeyOf dkey) (dkey.take 12) prot.key prot.address with
          | none => .err "cipher: message authentication failed"
          | some p => .ok p
        else .panic "nil pointer dereference"
      else if prot.encAlg = "aes-256-ctr" then (kdf X pwd (saltFromAddress X prot.address) param).bind fun dkey =>
        if dkey.length < 32 then .panic "slice bounds out of range"
        else if aesKeyOk (ekeyOf dkey) then
          .ok (xorBytes prot.key (X.ctrStream (ekeyOf dkey) (dkey.take 16) prot.key.length))
        else .err "invalid key size"
      else .err "unsupported encryption algorithm" := by
  unfold decryptBody
  split
  · cases kdf X pwd prot.salt param <;> rfl
  · split
    · cases kdf X pwd (saltFromAddress X prot.address) param <;> rfl
    · rfl

theorem decryptBody_outcome (X : ProtExt) (hX : X.Lawful) (h : Heap) (prot : ProtRef) (hk : prot.key.Valid h)
    (pwd : Bytes) (param : ScryptParam) :
    Outcome h (FreshCopy h) (decryptBodyRef X prot pwd param h) (decryptBody X (prot.read h) pwd param) := by
  have k := KeptHeap.refl h
  rw [decryptBody_eq]
  unfold decryptBodyRef
  show Outcome h (FreshCopy h) _ (if prot.encAlg = "aes-256-gcm" then _ else if prot.encAlg = "aes-256-ctr" then _ else _)
  split
  · refine Outcome.bind (kdf_outcome k X pwd rfl param) fun h1 dkey d k1 q1 => ?_
    obtain ⟨-, c1⟩ := q1
    have hl := c1.len
    rw [hl]
    split
    · exact outcome_panic _
    · refine outcome_read k1 (b := ekeyOf d) ?_ ?_
      · rw [← hl, sub_read_all c1.2.2 hl, hl]
        rfl
      refine outcome_read k1 (sub_read_first c1.2.2 hl (by omega)) ?_
      split
      · refine outcome_read k1 (k1.read hk.1) ?_
        show Outcome h (FreshCopy h) _ (match X.gcmOpen (ekeyOf d) (d.take 12) (prot.key.read h) prot.address with
          | none => _
          | some p => _)
        cases X.gcmOpen (ekeyOf d) (d.take 12) (prot.key.read h) prot.address with
        | none => exact outcome_err _
        | some p => exact ⟨k1.trans (kept_alloc h1 p), (fresh_alloc h1 p).1, k1.1.trans (fresh_alloc h1 p).2.1,
            (fresh_alloc h1 p).2.2⟩
      · exact outcome_panic _
  · split
    · refine outcome_new k _ fun h0 s0 k0 c0 => ?_
      refine Outcome.bind (kdf_outcome k0 X pwd c0.2.2 param) fun h1 dkey d k1 q1 => ?_
      obtain ⟨-, c1⟩ := q1
      have hl := c1.len
      rw [hl]
      split
      · exact outcome_panic _
      · refine outcome_read k1 (sub_read_first c1.2.2 hl (by omega)) ?_
        refine outcome_read k1 (b := ekeyOf d) ?_ ?_
        · rw [← hl, sub_read_all c1.2.2 hl, hl]
          rfl
        split
        · refine outcome_read k1 (k1.read hk.1) ?_
          have hx : (xorBytes (prot.key.read h) (X.ctrStream (ekeyOf d) (d.take 16) (prot.key.read h).length)).length =
              (prot.key.read h).length := by
            unfold xorBytes
            rw [List.length_zipWith, hX.ctr_length, Nat.min_self]
          refine outcome_make k1 _ fun h2 s2 k2 w2 => ?_
          have hz : (zeros (prot.key.read h).length).length = (prot.key.read h).length := List.length_replicate
          refine outcome_copy k2 w2 _ _ (by rw [hx, hz, Nat.zero_add]) fun h3 k3 w3 => ?_
          refine ⟨k3, ?_⟩
          have e := w3.fresh
          rwa [show splice (zeros (prot.key.read h).length) 0 (xorBytes (prot.key.read h)
            (X.ctrStream (ekeyOf d) (d.take 16) (prot.key.read h).length)) = _ from by
              unfold splice
              rw [List.take_zero, List.nil_append, Nat.zero_add, hx, List.drop_of_length_le (by rw [hz]),
                List.append_nil]] at e
        · exact outcome_err _
    · exact outcome_err _

theorem decrypt_outcome (E : Ext) (X : ProtExt) (hX : X.Lawful) (h : Heap) (prot : Option ProtRef)
    (hk : ∀ p, prot = some p → p.key.Valid h) (pwd : Bytes) (param : ScryptParam) :
    Outcome h (PrivAt h) (decryptRef E X prot pwd param h)
      (decryptWithCustomScrypt E X (prot.map (ProtRef.read h)) pwd param) := by
  unfold decryptRef decryptWithCustomScrypt
  cases prot with
  | none => exact outcome_err _
  | some prot =>
    dsimp only [Option.map_some]
    split
    · exact outcome_err _
    · refine Outcome.bind (decryptBody_outcome X hX h prot (hk prot rfl) pwd param) fun h1 s b k1 c1 => ?_
      unfold decodeBody
      show Outcome h (PrivAt h) _ (if prot.alg = "ECDSA" ∨ prot.alg = "SM2" then
        (match getNamedCurve E prot.curve with
        | .err m => .err m
        | .panic m => .panic m
        | .ok curve => .ok (.ec (if prot.alg = "ECDSA" then .ecdsa else .sm2) (constructPrivateKey E b curve))) else
        if prot.alg = "Ed25519" then _ else _)
      split
      · cases hc : getNamedCurve E prot.curve with
        | err m => exact (rfl : m = m)
        | panic m => exact (rfl : m = m)
        | ok c =>
          refine ⟨k1, ?_, fun s hs => by cases hs⟩
          show some _ = some _
          rw [c1.2.2]
      · split
        · rw [c1.len]
          split
          · exact outcome_err _
          · refine ⟨k1, ?_, fun s' hs => ?_⟩
            · show some (PrivateKey.ed (s.read h1)) = _
              rw [c1.2.2]
            · cases hs
              rw [c1.2.2]
              exact c1
        · exact outcome_err _

theorem reencrypt_outcome (E : Ext) (X : ProtExt) (hX : X.Lawful) (h : Heap) (prot : Option ProtRef)
    (hk : ∀ p, prot = some p → p.key.Valid h) (oldPwd newPwd : Bytes) (oldParam newParam : ScryptParam)
    (salt : Res Bytes) :
    Outcome h (ProtAt h) (reencryptRef E X prot oldPwd newPwd oldParam newParam salt h)
      (reencryptPrivateKey E X (prot.map (ProtRef.read h)) oldPwd newPwd oldParam newParam salt) := by
  have e : reencryptPrivateKey E X (prot.map (ProtRef.read h)) oldPwd newPwd oldParam newParam salt =
      (decryptWithCustomScrypt E X (prot.map (ProtRef.read h)) oldPwd oldParam).bind fun pri =>
        match prot.map (ProtRef.read h) with
        | none => .panic "nil pointer dereference"
        | some p => encryptWithCustomScrypt X pri p.address newPwd newParam salt := by
    unfold reencryptPrivateKey
    cases decryptWithCustomScrypt E X (prot.map (ProtRef.read h)) oldPwd oldParam <;> rfl
  rw [e]
  unfold reencryptRef
  refine Outcome.bind (decrypt_outcome E X hX h prot hk oldPwd oldParam) fun h1 key v k1 q1 => ?_
  cases prot with
  | none => exact outcome_panic _
  | some p =>
    exact encrypt_outcome X k1 key v q1.1 (fun s hs => (q1.2 s hs).1) p.address newPwd newParam salt

end Keypair

namespace Signature

theorem serializeDSA_outcome {h0 h : Heap} (k : KeptHeap h0 h) (r s : Int) (curve : Option Curve) :
    Outcome h0 (FreshCopy h0) (serializeDSARef r s curve h) (serializeDSA r s curve) := by
  have hz : ∀ n, (zeros n).length = n := fun n => List.length_replicate
  unfold serializeDSARef serializeDSA
  cases curve with
  | none => exact outcome_panic _
  | some c =>
    dsimp only
    refine outcome_make k _ fun h1 buf k1 w1 => ?_
    split
    · exact outcome_panic _
    · refine outcome_copy k1 w1 _ _ (by rw [hz]; omega) fun h2 k2 w2 => ?_
      split
      · exact outcome_panic _
      · refine outcome_copy k2 w2 _ _ (by rw [splice_length _ _ _ (by rw [hz]; omega), hz]; omega) fun h3 k3 w3 => ?_
        exact ⟨k3, w3.fresh⟩

theorem serializeDSA_write {h0 h : Heap} {s : Slice} {b : Bytes} (k : KeptHeap h0 h) (c : BufAt h0 h s b) (hb : b ≠ [])
    (grow : Nat → Nat) (x y : Int) (curve : Option Curve) :
    Outcome h0 (FreshCopy h0) ((do
      let e ← serializeDSARef x y curve
      let p ← HeapM.read e
      Buffer.write grow s p : HeapM Slice) h) ((serializeDSA x y curve).map fun e => b ++ e) := by
  rw [res_bind_ok]
  refine Outcome.bind (Q := fun h' e p => BufAt h0 h' s b ∧ e.read h' = p)
    (Outcome.rebase k (serializeDSA_outcome (KeptHeap.refl h) x y curve) fun h' e p k' q => ⟨c.kept k', q.2.2⟩) ?_
  intro h' e p k' q
  refine outcome_read k' q.2 ?_
  exact outcome_write_last k' q.1 grow p (by simp [hb]) rfl

theorem serialize_outcome (grow : Nat → Nat) (h : Heap) (sig : Option (Sig Slice))
    (hv : ∀ sch s, sig = some ⟨sch, .bytes s⟩ → s.Valid h) :
    Outcome h (FreshCopy h) (serializeRef grow sig h) (serialize (sig.map (Sig.map (bufOf h)))) := by
  have k := KeptHeap.refl h
  unfold serializeRef serialize
  cases sig with
  | none => exact outcome_err _
  | some sig =>
    obtain ⟨scheme, value⟩ := sig
    dsimp only [Option.map_some]
    refine outcome_write k (bufAt_empty h h) grow _ fun h1 s1 k1 c1 => ?_
    rw [res_bind_ok]
    refine Outcome.bind (Q := FreshCopy h) ?_ fun h2 res b k2 c2 => ?_
    · unfold serializeValue serializeValueRef Sig.map Value.map
      cases value with
      | dsa r s c =>
        dsimp only
        split
        · exact outcome_err _
        · exact serializeDSA_write k1 c1 (by simp) grow r s c
      | sm2 r s c id =>
        dsimp only
        split
        · exact outcome_err _
        · refine outcome_write k1 c1 grow id fun h2 s2 k2 c2 => ?_
          refine outcome_write k2 c2 grow [0] fun h3 s3 k3 c3 => ?_
          have e := serializeDSA_write k3 c3 (by simp) grow r s c
          simpa only [List.nil_append, List.append_assoc, List.singleton_append, List.cons_append] using e
      | bytes b =>
        dsimp only
        refine outcome_read k1 (k1.read (hv scheme b rfl).1) ?_
        exact outcome_write_last k1 c1 grow _ (by simp) rfl
      | other => exact outcome_err _
    · show Outcome h (FreshCopy h) ((if scheme = SHA256withECDSA ∧ res.len = 65 then
        (Pure.pure (res.sub 1 res.len) : HeapM Slice) else Pure.pure res) h2)
        (.ok (if scheme = SHA256withECDSA ∧ b.length = 65 then b.drop 1 else b))
      rw [c2.len]
      split
      · rename_i hc
        refine ⟨k2, ⟨c2.1.1, ?_, ?_⟩, c2.2.1, ?_⟩
        · have := c2.1.2.1
          rw [c2.len] at this
          simp only [Slice.sub]
          omega
        · have := c2.1.2.2
          have h2 := c2.1.2.1
          rw [c2.len] at h2
          simp only [Slice.sub]
          omega
        · rw [← c2.len, ← c2.2.2]
          simp only [Slice.read, Slice.sub, List.drop_take, List.drop_drop]
      · exact ⟨k2, c2⟩

end Signature
end Verif
