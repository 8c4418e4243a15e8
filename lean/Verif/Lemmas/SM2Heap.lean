import Verif.Model.SM2Heap
import Verif.Spec.HeapOpt
import Verif.Lemmas.SerialHeap
import Verif.Lemmas.SM2Print
/-!
# Lemmas about SM2 encryption on the heap (C131)
-/
namespace Verif
open Spec

theorem copy_bind {β : Type} (s : Slice) (i : Nat) (b : Bytes) (f : Unit → HeapM β) (h : Heap) :
    (HeapM.copy s i b >>= f) h = f () (h.store s.arr (s.off + i) b) := rfl

theorem read_bind {β : Type} (s : Slice) (f : Bytes → HeapM β) (h : Heap) :
    (HeapM.read s >>= f) h = f (s.read h) h := rfl

theorem new_bind {β : Type} (b : Bytes) (f : Slice → HeapM β) (h : Heap) :
    (HeapM.new b >>= f) h = f (h.alloc b).2 (h.alloc b).1 := rfl

theorem ok_bind {α β : Type} {p : HeapM α} {h h' : Heap} {a : α} (e : p h = .ok (h', a)) (f : α → HeapM β) :
    (p >>= f) h = f a h' := by
  show HeapM.bind p f h = _
  unfold HeapM.bind
  rw [e]

theorem Whole.kept {h0 h h' : Heap} {s : Slice} {b : Bytes} (w : Whole h0 h s b) (k : KeptHeap h h') : Whole h0 h' s b := by
  obtain ⟨w1, w2, w3, w4, w5, w6⟩ := w
  exact ⟨w1, w2.trans_le k.1, w3, w4, w5, (k.2 _ w2).trans w6⟩

theorem Whole.base {h0 h1 h : Heap} {s : Slice} {b : Bytes} (w : Whole h1 h s b) (k : KeptHeap h0 h1) : Whole h0 h s b :=
  ⟨k.1.trans w.1, w.2⟩

theorem Whole.store_other {h0 h : Heap} {s : Slice} {b : Bytes} (w : Whole h0 h s b) {a : Nat} (ha : s.arr ≠ a)
    (off : Nat) (p : Bytes) : Whole h0 (h.store a off p) s b := by
  obtain ⟨w1, w2, w3, w4, w5, w6⟩ := w
  exact ⟨w1, w2, w3, w4, w5, (store_mem_ne _ _ _ _ _ ha).trans w6⟩

theorem Whole.store_self {h0 h : Heap} {s : Slice} {b : Bytes} (w : Whole h0 h s b) (i : Nat) (p : Bytes)
    (hi : i + p.length ≤ b.length) : Whole h0 (h.store s.arr (s.off + i) p) s (splice b i p) := by
  obtain ⟨w1, w2, w3, w4, w5, w6⟩ := w
  have hl := splice_length b i p hi
  exact ⟨w1, w2, w3, by omega, by omega, by rw [store_mem_eq, w6, w3, Nat.zero_add]⟩

theorem Whole.read {h0 h : Heap} {s : Slice} {b : Bytes} (w : Whole h0 h s b) : s.read h = b := w.fresh.2.2

theorem Whole.frame {h0 h h' : Heap} {s : Slice} {b : Bytes} (w : Whole h0 h s b) (hn : h.next ≤ h'.next)
    (hm : h'.mem s.arr = h.mem s.arr) : Whole h0 h' s b := by
  obtain ⟨w1, w2, w3, w4, w5, w6⟩ := w
  exact ⟨w1, w2.trans_le hn, w3, w4, w5, hm.trans w6⟩

theorem whole_alloc (h : Heap) (b : Bytes) : Whole h (h.alloc b).1 (h.alloc b).2 b :=
  ⟨le_rfl, Nat.lt_succ_self _, rfl, rfl, rfl, by simp [Heap.alloc]⟩

theorem goCopyAt_splice (d : Bytes) (i : Nat) (p : Bytes) : (SM3.goCopyAt d i p).1 = splice d i (p.take (d.length - i)) := by
  simp only [SM3.goCopyAt, splice, List.length_take]
  rw [List.take_eq_take_iff.2 (show min (min (d.length - i) p.length) p.length = min (d.length - i) p.length by omega)]

theorem goCopyAt_len (d : Bytes) (i : Nat) (p : Bytes) (hi : i ≤ d.length) : (SM3.goCopyAt d i p).1.length = d.length :=
  SM3.goCopyAt_length d i p hi

theorem Whole.copy {h0 h : Heap} {s : Slice} {b : Bytes} (w : Whole h0 h s b) (i : Nat) (p : Bytes) (hi : i ≤ b.length) :
    ∃ h', SM2.copyRef s i p h = .ok (h', ()) ∧ h'.next = h.next ∧ (∀ a, a ≠ s.arr → h'.mem a = h.mem a) ∧
      Whole h0 h' s (SM3.goCopyAt b i p).1 := by
  refine ⟨_, rfl, rfl, fun a ha => store_mem_ne _ _ _ _ _ ha, ?_⟩
  rw [goCopyAt_splice, w.2.2.2.1]
  exact w.store_self i _ (by rw [List.length_take]; omega)

/-- Writing into `s` only. -/
def Only (s : Slice) (h h' : Heap) : Prop := h'.next = h.next ∧ ∀ a, a ≠ s.arr → h'.mem a = h.mem a

theorem Only.refl (s : Slice) (h : Heap) : Only s h h := ⟨rfl, fun _ _ => rfl⟩

theorem Only.trans {s : Slice} {h h' h'' : Heap} (a : Only s h h') (b : Only s h' h'') : Only s h h'' :=
  ⟨b.1.trans a.1, fun i hi => (b.2 i hi).trans (a.2 i hi)⟩

theorem Only.kept {s : Slice} {h0 h h' : Heap} (o : Only s h h') (k : KeptHeap h0 h) (hs : h0.next ≤ s.arr) :
    KeptHeap h0 h' := ⟨k.1.trans_eq o.1.symm, fun i hi => (o.2 i (by omega)).trans (k.2 i hi)⟩

theorem Only.whole {s v : Slice} {h0 h h' : Heap} {b : Bytes} (o : Only s h h') (w : Whole h0 h v b) (hv : v.arr ≠ s.arr) :
    Whole h0 h' v b := by
  obtain ⟨w1, w2, w3, w4, w5, w6⟩ := w
  exact ⟨w1, o.1.symm ▸ w2, w3, w4, w5, (o.2 _ hv).trans w6⟩

theorem Only.read {s v : Slice} {h h' : Heap} (o : Only s h h') (hv : v.arr ≠ s.arr) : v.read h' = v.read h := by
  unfold Slice.read
  rw [o.2 _ hv]

theorem Only.store (s : Slice) (h : Heap) (i : Nat) (p : Bytes) : Only s h (h.store s.arr i p) :=
  ⟨rfl, fun _ ha => store_mem_ne _ _ _ _ _ ha⟩

/-- Appending to a buffer leaves other arrays alone. -/
theorem write_other {grow : Nat → Nat} {h h' : Heap} {s s' : Slice} {p : Bytes} {a : Nat}
    (e : Buffer.write grow s p h = .ok (h', s')) (ha : a < h.next) (hs : s = Buffer.empty ∨ a ≠ s.arr) :
    h'.mem a = h.mem a ∧ (s' = Buffer.empty ∨ a ≠ s'.arr) := by
  unfold Buffer.write at e
  split at e
  · rename_i hc
    cases e
    rcases hs with rfl | hs
    · have hp : p = [] := by
        simp only [Buffer.empty] at hc
        exact List.length_eq_zero_iff.mp (by omega)
      subst hp
      refine ⟨?_, .inl rfl⟩
      simp only [Heap.store]
      split
      · simp [splice]
      · rfl
    · exact ⟨store_mem_ne _ _ _ _ _ hs, .inr hs⟩
  · cases e
    refine ⟨?_, .inr ?_⟩
    · simp only [Heap.alloc]; rw [if_neg (by omega)]
    · simp only [Heap.alloc]; omega

theorem write_next {grow : Nat → Nat} {h h' : Heap} {s s' : Slice} {p : Bytes}
    (e : Buffer.write grow s p h = .ok (h', s')) : h.next ≤ h'.next := (buffer_write_frame e).1

namespace SM2

theorem splice_append_right (z t : Bytes) (j : Nat) (p : Bytes) : splice (z ++ t) (z.length + j) p = z ++ splice t j p := by
  unfold splice
  rw [List.take_append, List.take_of_length_le (by omega), List.drop_append, List.drop_of_length_le (by omega),
    Nat.add_sub_cancel_left, Nat.add_assoc, Nat.add_sub_cancel_left]
  simp

theorem zz_step (z : Bytes) (t0 t1 t2 t3 x : Byte) :
    splice (z ++ [t0, t1, t2, t3]) z.length [x] = z ++ [x, t1, t2, t3] ∧
    splice (z ++ [t0, t1, t2, t3]) (z.length + 1) [x] = z ++ [t0, x, t2, t3] ∧
    splice (z ++ [t0, t1, t2, t3]) (z.length + 2) [x] = z ++ [t0, t1, x, t3] ∧
    splice (z ++ [t0, t1, t2, t3]) (z.length + 3) [x] = z ++ [t0, t1, t2, x] :=
  ⟨splice_append_right z _ 0 _, splice_append_right z _ 1 _, splice_append_right z _ 2 _, splice_append_right z _ 3 _⟩

theorem _root_.Verif.Only.bufAt {zz pp : Slice} {h0 h h' : Heap} {b : Bytes} (o : Only zz h h') (c : BufAt h0 h pp b)
    (hs : pp = Buffer.empty ∨ zz.arr ≠ pp.arr) : BufAt h0 h' pp b := by
  rcases c with c | c
  · exact .inl c
  · rcases hs with rfl | hs
    · refine .inl ⟨rfl, ?_⟩
      rw [← c.2.2]
      simp [Slice.read, Buffer.empty]
    · refine .inr ⟨⟨o.1.symm ▸ c.1.1, c.1.2.1, ?_⟩, c.2.1, ?_⟩
      · rw [o.2 _ hs.symm]; exact c.1.2.2
      · rw [o.read hs.symm]; exact c.2.2

theorem kdfLoopRef_ok (grow : Nat → Nat) (h0 : Heap) (zz : Slice) (z : Bytes) : ∀ (fuel i rLen : Nat) (pp : Slice)
    (b : Bytes) (h : Heap) (t0 t1 t2 t3 : Byte), KeptHeap h0 h → Whole h0 h zz (z ++ [t0, t1, t2, t3]) → BufAt h0 h pp b →
    (pp = Buffer.empty ∨ zz.arr ≠ pp.arr) →
    ∃ h' pp', kdfLoopRef grow zz z.length fuel i rLen pp h = .ok (h', pp') ∧ KeptHeap h0 h' ∧
      BufAt h0 h' pp' (kdfLoop z fuel i rLen b)
  | 0, i, rLen, pp, b, h, t0, t1, t2, t3, k, _, c, _ => ⟨h, pp, rfl, k, c⟩
  | fuel + 1, i, rLen, pp, b, h, t0, t1, t2, t3, k, w, c, hs => by
    rw [kdfLoopRef, kdfLoop]
    by_cases hr : rLen > 0
    · simp only [if_pos hr]
      rw [copy_bind, copy_bind, copy_bind, copy_bind, read_bind]
      have w1 := w.store_self z.length [BitVec.ofNat 8 (i >>> 24)] (by simp)
      rw [(zz_step z t0 t1 t2 t3 _).1] at w1
      have w2 := w1.store_self (z.length + 1) [BitVec.ofNat 8 (i >>> 16)] (by simp)
      rw [(zz_step z _ t1 t2 t3 _).2.1] at w2
      have w3 := w2.store_self (z.length + 2) [BitVec.ofNat 8 (i >>> 8)] (by simp)
      rw [(zz_step z _ _ t2 t3 _).2.2.1] at w3
      have w4 := w3.store_self (z.length + 3) [BitVec.ofNat 8 i] (by simp)
      rw [(zz_step z _ _ _ t3 _).2.2.2] at w4
      have o : Only zz h _ := (((Only.store zz h (zz.off + z.length) [BitVec.ofNat 8 (i >>> 24)]).trans
        (Only.store zz _ (zz.off + (z.length + 1)) [BitVec.ofNat 8 (i >>> 16)])).trans
        (Only.store zz _ (zz.off + (z.length + 2)) [BitVec.ofNat 8 (i >>> 8)])).trans
        (Only.store zz _ (zz.off + (z.length + 3)) [BitVec.ofNat 8 i])
      generalize Heap.store _ zz.arr (zz.off + (z.length + 3)) [BitVec.ofNat 8 i] = h4 at w4 o ⊢
      have k4 := o.kept k w.1
      have c4 : BufAt h0 h4 pp b := o.bufAt c hs
      rw [w4.read]
      generalize sm3Sum (z ++ [BitVec.ofNat 8 (i >>> 24), BitVec.ofNat 8 (i >>> 16),
        BitVec.ofNat 8 (i >>> 8), BitVec.ofNat 8 i]) = dg
      have go : ∀ d, ∃ h' pp', (appendRef grow pp d >>= fun pp => kdfLoopRef grow zz z.length fuel (i + 1) (rLen - 32) pp) h4
          = .ok (h', pp') ∧ KeptHeap h0 h' ∧ BufAt h0 h' pp' (kdfLoop z fuel (i + 1) (rLen - 32) (b ++ d)) := by
        intro d
        obtain ⟨h5, p5, e5, k5, c5⟩ := buffer_write k4 c4 grow d
        have hz := write_other e5 w4.2.1 hs
        rw [ok_bind (p := appendRef grow pp d) e5]
        have w5 := w4.frame (write_next e5) hz.1
        exact kdfLoopRef_ok grow h0 zz z fuel (i + 1) (rLen - 32) p5 (b ++ d) h5 _ _ _ _ k5 w5 c5 hz.2
      by_cases h32 : rLen ≥ 32
      · simp only [if_pos h32]
        exact go _
      · simp only [if_neg h32]
        exact go _
    · simp only [if_neg hr]
      exact ⟨h, pp, rfl, k, c⟩

/-- The two results of the key derivation. -/
def KdfAt (h0 h : Heap) (a : Option Slice) (v : Option Bytes) : Prop :=
  match a, v with
  | none, none => True
  | some s, some b => FreshCopy h0 h s b
  | _, _ => False

theorem sm3kdfRef_ok (grow : Nat → Nat) (h : Heap) (z : Slice) (zb : Bytes) (hz : z.arr < h.next) (hl : z.len = zb.length)
    (e : z.read h = zb) (kLen : Nat) :
    ∃ h' a, sm3kdfRef grow z kLen h = .ok (h', a) ∧ KeptHeap h h' ∧ KdfAt h h' a (sm3kdf zb kLen) := by
  unfold sm3kdfRef
  rw [new_bind, read_bind]
  have wz := whole_alloc h (zeros (z.len + 4))
  have kz := kept_alloc h (zeros (z.len + 4))
  generalize h.alloc (zeros (z.len + 4)) = A at wz kz ⊢
  obtain ⟨h1, zz⟩ := A
  dsimp only at wz kz ⊢
  rw [kz.read hz, e]
  obtain ⟨h2, e2, n2, m2, w2⟩ := wz.copy 0 zb (Nat.zero_le _)
  rw [ok_bind e2]
  have o2 : Only zz h1 h2 := ⟨n2, m2⟩
  have hb : (SM3.goCopyAt (zeros (z.len + 4)) 0 zb).1 = zb ++ [0, 0, 0, 0] := by
    rw [goCopyAt_splice, hl]
    have hz : zeros (zb.length + 4) = zeros zb.length ++ zeros 4 := by
      unfold zeros
      rw [List.replicate_append_replicate]
    rw [hz]
    simp only [splice, zeros, List.length_append, List.length_replicate, Nat.sub_zero, List.take_zero, List.nil_append,
      Nat.zero_add]
    rw [List.take_of_length_le (by omega), List.drop_append, List.drop_of_length_le (by simp)]
    simp
  rw [hb] at w2
  obtain ⟨h3, pp, e3, k3, c3⟩ := kdfLoopRef_ok grow h zz zb kLen 1 kLen Buffer.empty [] h2 0 0 0 0
    (o2.kept kz wz.1) w2 (bufAt_empty _ _) (.inl rfl)
  rw [hl, ok_bind e3, read_bind]
  have er : pp.read h3 = kdfLoop zb kLen 1 kLen [] := by
    rcases c3 with ⟨rfl, c⟩ | c
    · rw [c]; simp [Slice.read, Buffer.empty]
    · exact c.2.2
  rw [er]
  unfold sm3kdf
  dsimp only
  by_cases hc : kdfCheck zb.length (kdfLoop zb kLen 1 kLen []) = true
  · simp only [if_pos hc]
    refine ⟨h3, some pp, rfl, k3, c3.fresh ?_⟩
    intro h0
    rw [h0] at hc
    simp [kdfCheck] at hc
  · simp only [if_neg hc]
    exact ⟨h3, none, rfl, k3, trivial⟩

/-- `putRight` on the heap, against the function on bytes. -/
theorem putRightRef_ok {h0 h : Heap} {s : Slice} {b : Bytes} (w : Whole h0 h s b) (stop n : Nat) (hs : stop ≤ b.length) :
    (∃ m, putRightRef s stop n h = .panic m ∧ putRight b stop n = .panic m) ∨
    ∃ h' b', putRightRef s stop n h = .ok (h', ()) ∧ putRight b stop n = .ok b' ∧ Only s h h' ∧ Whole h0 h' s b' ∧
      b'.length = b.length := by
  unfold putRightRef putRight
  by_cases hn : byteLen n > stop
  · rw [if_pos hn, if_pos hn]
    exact .inl ⟨_, rfl, rfl⟩
  · rw [if_neg hn, if_neg hn]
    obtain ⟨h', e, n', m', w'⟩ := w.copy (stop - byteLen n) (bytesOfNat n) (by omega)
    exact .inr ⟨h', _, e, rfl, ⟨n', m'⟩, w', goCopyAt_len _ _ _ (by omega)⟩

theorem panic_bind {α β : Type} {p : HeapM α} {h : Heap} {m : String} (e : p h = .panic m) (f : α → HeapM β) :
    (p >>= f) h = .panic m := by
  show HeapM.bind p f h = _
  unfold HeapM.bind
  rw [e]

theorem pointBufRef_ok (h : Heap) (x y : Nat) :
    (∃ m, pointBufRef x y h = .panic m ∧ pointBuf x y = .panic m) ∨
    ∃ h' s b, pointBufRef x y h = .ok (h', s) ∧ pointBuf x y = .ok b ∧ KeptHeap h h' ∧ Whole h h' s b ∧ b.length = 64 := by
  unfold pointBufRef pointBuf
  rw [new_bind]
  have wz := whole_alloc h (zeros 64)
  have kz := kept_alloc h (zeros 64)
  generalize h.alloc (zeros 64) = A at wz kz ⊢
  obtain ⟨h1, s⟩ := A
  dsimp only at wz kz ⊢
  rcases putRightRef_ok wz 32 x (by decide) with ⟨m, e, v⟩ | ⟨h2, b2, e, v, o, w, l⟩
  · rw [panic_bind e, v]
    exact .inl ⟨m, rfl, rfl⟩
  · rw [ok_bind e, v]
    have l64 : (zeros 64).length = 64 := zeros_length 64
    rcases putRightRef_ok w 64 y (by omega) with ⟨m, e', v'⟩ | ⟨h3, b3, e', v', o', w', l'⟩
    · rw [panic_bind e']
      exact .inl ⟨m, rfl, v'⟩
    · rw [ok_bind e']
      exact .inr ⟨h3, s, b3, rfl, v', (o.trans o').kept kz wz.1, w', by omega⟩

theorem xor_step (d a t : Bytes) (i : Nat) (ha : i < a.length) (ht : a.length ≤ t.length) (hd : d.length = a.length) :
    (splice d i [a.getD i 0 ^^^ t.getD i 0]).take (i + 1) = d.take i ++ [a.getD i 0 ^^^ t.getD i 0] ∧
    List.zipWith (· ^^^ ·) (a.drop i) (t.drop i) =
      (a.getD i 0 ^^^ t.getD i 0) :: List.zipWith (· ^^^ ·) (a.drop (i + 1)) (t.drop (i + 1)) := by
  constructor
  · unfold splice
    rw [List.take_append_of_le_length (by simp; omega), List.take_of_length_le (by simp)]
  · rw [List.drop_eq_getElem_cons ha, List.drop_eq_getElem_cons (by omega : i < t.length), List.zipWith_cons_cons]
    simp [List.getD_eq_getElem?_getD, List.getElem?_eq_getElem ha, List.getElem?_eq_getElem (by omega : i < t.length)]

theorem xorLoopRef_ok {h0 : Heap} (dst src key : Slice) (a t : Bytes) (hs : src.arr ≠ dst.arr) (hk : key.arr ≠ dst.arr)
    (ht : a.length ≤ t.length) : ∀ (n i : Nat) (h : Heap) (d : Bytes), i + n = a.length → d.length = a.length →
    Whole h0 h dst d → src.read h = a → key.read h = t →
    ∃ h', xorLoopRef dst src key n i h = .ok (h', ()) ∧ Only dst h h' ∧
      Whole h0 h' dst (d.take i ++ List.zipWith (· ^^^ ·) (a.drop i) (t.drop i))
  | 0, i, h, d, hi, hd, w, _, _ => ⟨h, rfl, Only.refl _ _, by
      rw [List.drop_of_length_le (l := a) (by omega), List.take_of_length_le (by omega)]
      simpa using w⟩
  | n + 1, i, h, d, hi, hd, w, es, ek => by
    rw [xorLoopRef, read_bind, read_bind, copy_bind, es, ek]
    obtain ⟨x1, x2⟩ := xor_step d a t i (by omega) ht hd
    have w1 := w.store_self i [a.getD i 0 ^^^ t.getD i 0] (by simp; omega)
    have o := Only.store dst h (dst.off + i) [a.getD i 0 ^^^ t.getD i 0]
    obtain ⟨h', e, o', w'⟩ := xorLoopRef_ok dst src key a t hs hk ht n (i + 1) _ _ (by omega)
      (by rw [splice_length _ _ _ (by simp; omega), hd]) w1 (by rw [o.read hs, es]) (by rw [o.read hk, ek])
    refine ⟨h', e, o.trans o', ?_⟩
    rw [x1, List.append_assoc] at w'
    rw [x2]
    exact w'

theorem macOfRef_ok (h : Heap) (x y : Nat) (m : Slice) (mb : Bytes) (hm : m.arr < h.next) (hl : m.len = mb.length)
    (e : m.read h = mb) :
    (∃ s, macOfRef x y m h = .panic s ∧ macOf x y mb = .panic s) ∨
    ∃ h' c, macOfRef x y m h = .ok (h', c) ∧ macOf x y mb = .ok c ∧ KeptHeap h h' := by
  unfold macOfRef macOf
  rw [new_bind, hl]
  have wz := whole_alloc h (zeros (32 + mb.length + 32))
  have kz := kept_alloc h (zeros (32 + mb.length + 32))
  generalize h.alloc (zeros (32 + mb.length + 32)) = A at wz kz ⊢
  obtain ⟨h1, s⟩ := A
  dsimp only at wz kz ⊢
  have lz : (zeros (32 + mb.length + 32)).length = 32 + mb.length + 32 := zeros_length _
  rcases putRightRef_ok wz 32 x (by omega) with ⟨m, e, v⟩ | ⟨h2, b2, e2, v, o, w, l⟩
  · rw [panic_bind e, v]
    exact .inl ⟨m, rfl, rfl⟩
  · rw [ok_bind e2, v, read_bind]
    have hne : m.arr ≠ s.arr := by have := wz.1; omega
    rw [o.read hne, kz.read hm, e]
    obtain ⟨h3, e3, n3, m3, w3⟩ := w.copy 32 mb (by omega)
    rw [ok_bind e3]
    have l3 := goCopyAt_len b2 32 mb (by omega)
    obtain ⟨h4, e4, n4, m4, w4⟩ := w3.copy (s.len - 32) (bytesOfNat y) (by rw [w3.2.2.2.1]; omega)
    rw [ok_bind e4, read_bind, w4.read]
    refine .inr ⟨h4, _, rfl, ?_, ?_⟩
    · show Res.ok (sm3Sum _) = _
      rw [w3.2.2.2.1]
    · exact (o.trans (Only.trans ⟨n3, m3⟩ ⟨n4, m4⟩)).kept kz wz.1

theorem kdf_len {z t : Bytes} {n : Nat} (hz : z.length = 64) (e : sm3kdf z n = some t) : t.length = n := by
  unfold sm3kdf at e
  dsimp only at e
  split at e
  · rw [← Option.some.inj e]
    exact kdfLoop_length z (by omega) n
  · cases e

/-- The invariant of the loop of `Encrypt`: the two slices it fills are new and different, and nothing that was there
has changed. -/
structure EncInv (h0 h : Heap) (data enc c2 : Slice) (buf : Bytes) : Prop where
  kept : KeptHeap h0 h
  valid : data.Valid h0
  we : Whole h0 h enc buf
  len : buf.length = 96 + data.len
  wc : ∃ d : Bytes, d.length = data.len ∧ Whole h0 h c2 d
  ne : enc.arr ≠ c2.arr

theorem EncInv.read {h0 h : Heap} {data enc c2 : Slice} {buf : Bytes} (i : EncInv h0 h data enc c2 buf) :
    data.read h = data.read h0 := i.kept.read i.valid.1

theorem read_length {h : Heap} {s : Slice} (hv : s.Valid h) : (s.read h).length = s.len := by
  obtain ⟨_, h2, h3⟩ := hv
  simp only [Slice.read, List.length_take, List.length_drop]
  omega

/-- Writing to the first slice keeps the invariant. -/
theorem EncInv.put {h0 h h' : Heap} {data enc c2 : Slice} {buf buf' : Bytes} (i : EncInv h0 h data enc c2 buf)
    (o : Only enc h h') (w : Whole h0 h' enc buf') (l : buf'.length = buf.length) : EncInv h0 h' data enc c2 buf' where
  kept := o.kept i.kept i.we.1
  valid := i.valid
  we := w
  len := l.trans i.len
  wc := by
    obtain ⟨d, hd, wd⟩ := i.wc
    exact ⟨d, hd, o.whole wd i.ne.symm⟩
  ne := i.ne

/-- New memory keeps the invariant. -/
theorem EncInv.step {h0 h h' : Heap} {data enc c2 : Slice} {buf : Bytes} (i : EncInv h0 h data enc c2 buf)
    (k : KeptHeap h h') : EncInv h0 h' data enc c2 buf where
  kept := i.kept.trans k
  valid := i.valid
  we := i.we.kept k
  len := i.len
  wc := by
    obtain ⟨d, hd, wd⟩ := i.wc
    exact ⟨d, hd, wd.kept k⟩
  ne := i.ne

theorem err_bind {α β : Type} {p : HeapM α} {h : Heap} {m : String} (e : p h = .err m) (f : α → HeapM β) :
    (p >>= f) h = .err m := by
  show HeapM.bind p f h = _
  unfold HeapM.bind
  rw [e]

theorem encryptEnd_ok {h0 h : Heap} {data enc c2 : Slice} {buf : Bytes} (i : EncInv h0 h data enc c2 buf) (c : Bytes)
    (hc : c.length = data.len) (w : Whole h0 h c2 c) (p2 : Nat × Nat) :
    Outcome h0 (FreshCopy h0) (encryptEndRef data enc c2 p2 h) ((macOf p2.1 p2.2 (data.read h0)).bind fun c3 =>
      let buf := (SM3.goCopyAt buf 64 c3).1
      .ok (SM3.goCopyAt buf 96 c).1) := by
  unfold encryptEndRef
  rcases macOfRef_ok h p2.1 p2.2 data (data.read h0) (i.valid.1.trans_le i.kept.1) (read_length i.valid).symm i.read with
    ⟨m, e, v⟩ | ⟨h1, c3, e, v, k⟩
  · rw [panic_bind e, v]
    rfl
  · rw [ok_bind e, v]
    have i1 := i.step k
    have w1 := w.kept k
    obtain ⟨h2, e2, n2, m2, w2⟩ := i1.we.copy 64 c3 (by have := i.len; omega)
    have o2 : Only enc h1 h2 := ⟨n2, m2⟩
    have l2 := goCopyAt_len buf 64 c3 (by have := i.len; omega)
    rw [ok_bind e2, read_bind, (o2.whole w1 i.ne.symm).read]
    have i2 := i1.put o2 w2 l2
    obtain ⟨h3, e3, n3, m3, w3⟩ := w2.copy 96 c (by have := i.len; omega)
    rw [ok_bind e3]
    exact ⟨Only.kept (s := enc) ⟨n3, m3⟩ i2.kept i.we.1, w3.fresh⟩

theorem encryptLoopRef_ok (E : Ext) (grow : Nat → Nat) (pub : ECPub) {h0 : Heap} {data enc c2 : Slice} :
    ∀ (bs : List Bytes) (h : Heap) (buf : Bytes), EncInv h0 h data enc c2 buf →
    OutcomeOpt h0 (FreshCopy h0) (encryptLoopRef E grow pub data enc c2 bs h) (encryptLoop E pub (data.read h0) bs buf)
  | [], _, _, _ => trivial
  | b :: bs, h, buf, i => by
    rw [encryptLoopRef, encryptLoop]
    generalize randFieldElement pub.curve b = k
    unfold encryptTryRef
    obtain ⟨⟨x1, y1⟩, hp1⟩ : ∃ q, E.ops.baseMult k = q := ⟨_, rfl⟩
    obtain ⟨⟨x2, y2⟩, hp2⟩ : ∃ q, E.ops.mult (pub.x, pub.y) k = q := ⟨_, rfl⟩
    simp only [hp1, hp2]
    rcases putRightRef_ok i.we 32 x1 (by have := i.len; omega) with ⟨m, e, v⟩ | ⟨h1, b1, e, v, o1, w1, l1⟩
    · rw [panic_bind e, v]
      rfl
    rw [ok_bind e, v]
    have i1 := i.put o1 w1 l1
    rcases putRightRef_ok w1 64 y1 (by have := i1.len; omega) with ⟨m, e, v⟩ | ⟨h2, b2, e, v, o2, w2, l2⟩
    · rw [panic_bind e, Res.bind_ok, v]
      rfl
    rw [ok_bind e, Res.bind_ok, v]
    have i2 := i1.put o2 w2 l2
    dsimp only
    by_cases h00 : pub.x = 0 ∧ pub.y = 0
    · simp only [if_pos h00]
      rfl
    simp only [if_neg h00]
    rcases pointBufRef_ok h2 x2 y2 with ⟨m, e, v⟩ | ⟨h3, s, zb, e, v, k3, w3, l3⟩
    · rw [panic_bind e, v]
      rfl
    rw [ok_bind e, v]
    have i3 := i2.step k3
    obtain ⟨h4, a, e, k4, q⟩ := sm3kdfRef_ok grow h3 s zb w3.2.1 w3.2.2.2.1 w3.read data.len
    rw [ok_bind e]
    have i4 := i3.step k4
    have hlen := read_length i.valid
    rw [hlen]
    dsimp only
    unfold KdfAt at q
    revert q
    rcases a with _ | t <;> rcases hv : sm3kdf zb data.len with _ | tb <;> intro q <;> try exact q.elim
    · exact encryptLoopRef_ok E grow pub bs h4 b2 i4
    · dsimp only
      obtain ⟨d, hd, wd⟩ := i4.wc
      have lt := kdf_len l3 hv
      have hc2 : c2.arr < h3.next := by
        obtain ⟨_, _, w⟩ := i3.wc
        exact w.2.1
      obtain ⟨h5, e5, o5, w5⟩ := xorLoopRef_ok (h0 := h0) c2 data t (data.read h0) tb
        (by have := wd.1; have := i.valid.1; omega) (by have := q.2.1; omega)
        (by omega) data.len 0 h4 d (by omega) (by omega) wd i4.read q.2.2
      rw [ok_bind e5]
      have i5 : EncInv h0 h5 data enc c2 b2 :=
        { kept := o5.kept i4.kept wd.1
          valid := i.valid
          we := o5.whole i4.we i.ne
          len := i4.len
          wc := ⟨_, by simp [hlen, lt], w5⟩
          ne := i.ne }
      simp only [List.take_zero, List.nil_append, List.drop_zero] at w5
      exact encryptEnd_ok i5 _ (by simp [hlen, lt]) w5 (x2, y2)

theorem encryptRef_ok (E : Ext) (grow : Nat → Nat) (fuel : Nat) (rand : Bytes) (pub : ECPub) (data : Slice) (h : Heap)
    (hv : data.Valid h) :
    OutcomeOpt h (FreshCopy h) (encryptRef E grow fuel rand pub data h) (encrypt E fuel rand pub (data.read h)) := by
  unfold encryptRef encrypt
  by_cases hc : pub.curve ≠ Curves.sm2
  · rw [if_pos hc, if_pos hc]
    rfl
  rw [if_neg hc, if_neg hc]
  have we := whole_alloc h (zeros (96 + data.len))
  have ke := kept_alloc h (zeros (96 + data.len))
  generalize h.alloc (zeros (96 + data.len)) = A at we ke ⊢
  obtain ⟨h1, enc⟩ := A
  dsimp only at we ke ⊢
  have wn := whole_alloc h1 (zeros (entropyLen pub.curve))
  have kn := kept_alloc h1 (zeros (entropyLen pub.curve))
  generalize h1.alloc (zeros (entropyLen pub.curve)) = A at wn kn ⊢
  obtain ⟨h2, ent⟩ := A
  dsimp only at wn kn ⊢
  by_cases hr : rand.length < entropyLen pub.curve
  · rw [if_pos hr, if_pos hr]
    rfl
  rw [if_neg hr, if_neg hr]
  have lr : (rand.take (entropyLen pub.curve)).length = entropyLen pub.curve := by rw [List.length_take]; omega
  have w3 := wn.store_self 0 (rand.take (entropyLen pub.curve)) (by rw [lr, zeros_length]; omega)
  have es : splice (zeros (entropyLen pub.curve)) 0 (rand.take (entropyLen pub.curve)) = rand.take (entropyLen pub.curve) := by
    unfold splice
    rw [lr, List.drop_of_length_le (by rw [zeros_length]; omega)]
    simp
  rw [es, wn.2.2.1] at w3
  have o3 := Only.store ent h2 (0 + 0) (rand.take (entropyLen pub.curve))
  rw [Nat.add_zero] at w3 o3
  generalize h2.store ent.arr 0 (rand.take (entropyLen pub.curve)) = h3 at w3 o3 ⊢
  rw [w3.read, ke.read hv.1]
  have k3 : KeptHeap h1 h3 := o3.kept kn wn.1
  have w4 := whole_alloc h3 (zeros data.len)
  have k4 := kept_alloc h3 (zeros data.len)
  generalize h3.alloc (zeros data.len) = A at w4 k4 ⊢
  obtain ⟨h4, c2⟩ := A
  dsimp only at w4 k4 ⊢
  have hlen := read_length hv
  rw [hlen]
  refine encryptLoopRef_ok E grow pub _ h4 _ ⟨(ke.trans k3).trans k4, hv, (we.kept k3).kept k4, zeros_length _,
    ⟨_, zeros_length _, w4.base (ke.trans k3)⟩, ?_⟩
  have := we.2.1
  have := k3.1
  have := w4.1
  omega

theorem buf_eq {h : Heap} {s : Slice} (hv : s.Valid h) : s.read h ++ spareOf h s = ((h.mem s.arr).drop s.off).take s.cap := by
  unfold Slice.read spareOf
  rw [show s.off + s.len = s.off + s.len from rfl, ← List.drop_drop, ← List.drop_take]
  have e : ((h.mem s.arr).drop s.off).take s.len = (((h.mem s.arr).drop s.off).take s.cap).take s.len := by
    rw [List.take_take, Nat.min_eq_left hv.2.1]
  rw [e, List.take_append_drop]

theorem sub_read {h : Heap} {s : Slice} (hv : s.Valid h) (i j : Nat) (hj : j ≤ s.cap) :
    (s.sub i j).read h = ((s.read h ++ spareOf h s).drop i).take (j - i) := by
  rw [buf_eq hv]
  simp only [Slice.read, Slice.sub]
  rw [List.drop_take, List.drop_drop, List.take_take, Nat.min_eq_left (by omega)]

theorem sub_read_in {h : Heap} {s : Slice} (hv : s.Valid h) (i j : Nat) (hj : j ≤ s.len) :
    (s.sub i j).read h = ((s.read h).drop i).take (j - i) := by
  have := hv.2.1
  rw [sub_read hv i j (by omega), List.drop_append, List.take_append, List.length_drop, read_length hv,
    show j - i - (s.len - i) = 0 by omega]
  simp

theorem decryptRef_ok (E : Ext) (grow : Nat → Nat) (priv : ECPriv) (data : Slice) (h : Heap) (hv : data.Valid h) :
    Outcome h (DecAt h) (decryptRef E grow priv data h) (decrypt E priv (data.read h) (spareOf h data)) := by
  unfold decryptRef decrypt
  have hlen := read_length hv
  have hbuf : (data.read h ++ spareOf h data).length = data.cap := by
    rw [buf_eq hv, List.length_take, List.length_drop]
    have := hv.2.2
    omega
  by_cases hc : priv.pub.curve ≠ Curves.sm2
  · rw [if_pos hc, if_pos hc]
    exact ⟨KeptHeap.refl h, rfl, trivial⟩
  rw [if_neg hc, if_neg hc]
  dsimp only
  by_cases hcap : data.cap < 64
  · rw [if_pos hcap, if_pos (by omega)]
    rfl
  rw [if_neg hcap, if_neg (by omega), read_bind, read_bind, sub_read hv 0 32 (by omega), sub_read hv 32 64 (by omega),
    List.drop_zero]
  generalize natOfBytes ((data.read h ++ spareOf h data).take (32 - 0)) = x1
  generalize natOfBytes (((data.read h ++ spareOf h data).drop 32).take (64 - 32)) = y1
  by_cases h0 : x1 = 0 ∧ y1 = 0
  · rw [if_pos h0, if_pos h0]
    exact ⟨KeptHeap.refl h, rfl, trivial⟩
  rw [if_neg h0, if_neg h0]
  by_cases hon : E.isOnCurve x1 y1 = false
  · rw [if_pos hon, if_pos hon]
    exact ⟨KeptHeap.refl h, rfl, trivial⟩
  rw [if_neg hon, if_neg hon]
  obtain ⟨⟨x2, y2⟩, hp2⟩ : ∃ q, E.ops.mult (x1, y1) priv.D = q := ⟨_, rfl⟩
  simp only [hp2]
  rcases pointBufRef_ok h x2 y2 with ⟨m, e, v⟩ | ⟨h3, s, zb, e, v, k3, w3, l3⟩
  · rw [panic_bind e, v]
    rfl
  rw [ok_bind e, v, Res.bind_ok]
  obtain ⟨h4, a, e, k4, q⟩ := sm3kdfRef_ok grow h3 s zb w3.2.1 w3.2.2.2.1 w3.read (data.len - 96)
  rw [ok_bind e, hlen]
  have kk := k3.trans k4
  unfold KdfAt at q
  revert q
  rcases a with _ | t <;> rcases hkdf : sm3kdf zb (data.len - 96) with _ | tb <;> intro q <;> try exact q.elim
  · exact ⟨kk, rfl, trivial⟩
  · dsimp only
    have lt := kdf_len l3 hkdf
    have h96 : 96 < data.len := by
      by_contra hn
      rw [show data.len - 96 = 0 by omega] at hkdf
      simp [sm3kdf, kdfLoop, kdfCheck] at hkdf
    rw [new_bind]
    have w5 := whole_alloc h4 (zeros (data.len - 96))
    have k5 := kept_alloc h4 (zeros (data.len - 96))
    generalize h4.alloc (zeros (data.len - 96)) = A at w5 k5 ⊢
    obtain ⟨h5, msg⟩ := A
    dsimp only at w5 k5 ⊢
    have k05 := kk.trans k5
    have hd : data.arr < h4.next := hv.1.trans_le kk.1
    have es : (data.sub 96 data.len).read h5 = (data.read h).drop 96 := by
      rw [k05.read (s := data.sub 96 data.len) hv.1, sub_read_in hv 96 data.len le_rfl, List.take_of_length_le]
      rw [List.length_drop, hlen]
    have la : ((data.read h).drop 96).length = data.len - 96 := by rw [List.length_drop, hlen]
    obtain ⟨h6, e6, o6, w6⟩ := xorLoopRef_ok (h0 := h4) msg (data.sub 96 data.len) t ((data.read h).drop 96) tb
      (by have := w5.1; show data.arr ≠ _; omega) (by have := w5.1; have := q.1.1; omega)
      (by omega) (data.len - 96) 0 h5 _ (by omega) (by rw [zeros_length, la]) w5 es (by rw [k5.read q.1.1]; exact q.2.2)
    rw [ok_bind e6]
    simp only [List.take_zero, List.nil_append, List.drop_zero] at w6
    have k46 : KeptHeap h4 h6 := o6.kept k5 w5.1
    rcases macOfRef_ok h6 x2 y2 msg _ w6.2.1 w6.2.2.2.1 w6.read with ⟨m, e, v⟩ | ⟨h7, c3, e, v, k7⟩
    · rw [panic_bind e, v]
      rfl
    rw [ok_bind e, v, Res.bind_ok, read_bind]
    have k07 := (kk.trans k46).trans k7
    rw [k07.read (s := data.sub 64 96) hv.1, sub_read_in hv 64 96 (by omega)]
    have wf := ((w6.kept k7).base kk).fresh
    by_cases h3c : c3 ≠ ((data.read h).drop 64).take (96 - 64)
    · rw [if_pos h3c, if_pos h3c]
      exact ⟨k07, rfl, wf⟩
    · rw [if_neg h3c, if_neg h3c]
      exact ⟨k07, rfl, wf⟩

theorem getZ_append (H : Bytes → Bytes) (msg : Bytes) (pub : ECPub) (id : Bytes) :
    getZ H msg pub id = (getZ H [] pub id).map fun z => z ++ msg := by
  unfold getZ
  by_cases hc : pub.curve ≠ Curves.sm2
  · rw [if_pos hc, if_pos hc]
    rfl
  · rw [if_neg hc, if_neg hc]
    simp [Res.map]

theorem getZRef_ok (H : Bytes → Bytes) (grow : Nat → Nat) (msg : Slice) (pub : ECPub) (id : Bytes) (h : Heap)
    (hv : msg.Valid h) :
    (∃ m, getZRef H grow msg pub id h = .err m ∧ getZ H (msg.read h) pub id = .err m) ∨
    ∃ h' s mz, getZRef H grow msg pub id h = .ok (h', s) ∧ getZ H (msg.read h) pub id = .ok mz ∧ KeptHeap h h' ∧
      s.read h' = mz := by
  unfold getZRef
  rw [getZ_append H (msg.read h)]
  rcases hz : getZ H [] pub id with z | m | m
  · right
    rw [ok_bind (p := HeapM.lift (.ok z)) (h := h) (h' := h) (a := z) rfl]
    obtain ⟨h1, s1, e1, k1, c1⟩ := buffer_write (KeptHeap.refl h) (bufAt_empty h h) grow z
    rw [ok_bind (p := appendRef grow Buffer.empty z) e1, read_bind, k1.read hv.1]
    obtain ⟨h2, s2, e2, k2, c2⟩ := buffer_write k1 c1 grow (msg.read h)
    refine ⟨h2, s2, _, e2, rfl, k2, ?_⟩
    rcases c2 with ⟨rfl, c⟩ | c
    · rw [List.nil_append] at c
      dsimp only
      rw [c]
      simp [Slice.read, Buffer.empty]
    · rw [c.2.2, List.nil_append]
  · left
    exact ⟨m, err_bind rfl _, rfl⟩
  · exfalso
    unfold getZ at hz
    split at hz <;> cases hz

theorem signRef_ok (E : Ext) (H : Bytes → Bytes) (grow : Nat → Nat) (fuel : Nat) (rand : Bytes) (priv : ECPriv)
    (id : Bytes) (msg : Slice) (h : Heap) (hv : msg.Valid h) :
    OutcomeOpt h (fun _ a b => a = b) (signRef E H grow fuel rand priv id msg h)
      (sign E H fuel rand priv id (msg.read h)) := by
  unfold signRef sign
  rcases getZRef_ok H grow msg priv.pub id h hv with ⟨m, e, v⟩ | ⟨h1, s, mz, e, v, k1, er⟩
  · rw [e, v]
    rfl
  rw [e, v]
  dsimp only
  rw [er]
  have w2 := whole_alloc h1 (H mz)
  have k2 := kept_alloc h1 (H mz)
  generalize h1.alloc (H mz) = A at w2 k2 ⊢
  obtain ⟨h2, dg⟩ := A
  dsimp only at w2 k2 ⊢
  have w3 := whole_alloc h2 (zeros (entropyLen priv.pub.curve))
  have k3 := kept_alloc h2 (zeros (entropyLen priv.pub.curve))
  generalize h2.alloc (zeros (entropyLen priv.pub.curve)) = A at w3 k3 ⊢
  obtain ⟨h3, ent⟩ := A
  dsimp only at w3 k3 ⊢
  by_cases hr : rand.length < entropyLen priv.pub.curve
  · rw [if_pos hr, if_pos hr]
    rfl
  rw [if_neg hr, if_neg hr]
  have lr : (rand.take (entropyLen priv.pub.curve)).length = entropyLen priv.pub.curve := by rw [List.length_take]; omega
  have w4 := w3.store_self 0 (rand.take (entropyLen priv.pub.curve)) (by rw [lr, zeros_length]; omega)
  have es : splice (zeros (entropyLen priv.pub.curve)) 0 (rand.take (entropyLen priv.pub.curve))
      = rand.take (entropyLen priv.pub.curve) := by
    unfold splice
    rw [lr, List.drop_of_length_le (by rw [zeros_length]; omega)]
    simp
  rw [es, w3.2.2.1] at w4
  have o4 := Only.store ent h3 (0 + 0) (rand.take (entropyLen priv.pub.curve))
  rw [Nat.add_zero] at w4 o4
  generalize h3.store ent.arr 0 (rand.take (entropyLen priv.pub.curve)) = h4 at w4 o4 ⊢
  have k24 : KeptHeap h2 h4 := o4.kept k3 w3.1
  have w5 := whole_alloc h4 (bytesOfNat priv.D)
  have k5 := kept_alloc h4 (bytesOfNat priv.D)
  generalize h4.alloc (bytesOfNat priv.D) = A at w5 k5 ⊢
  obtain ⟨h5, pk⟩ := A
  dsimp only at w5 k5 ⊢
  rw [w5.read, (w4.kept k5).read, ((w2.kept k24).kept k5).read]
  rcases signLoop E priv.pub.curve (natOfBytes (bytesOfNat priv.D)) (natOfBytes (H mz)) _ with _ | rs
  · trivial
  · exact ⟨((k1.trans k2).trans k24).trans k5, rfl⟩

theorem verifyRef_ok (E : Ext) (H : Bytes → Bytes) (grow : Nat → Nat) (pub : ECPub) (id : Bytes) (msg : Slice) (r s : Int)
    (h : Heap) (hv : msg.Valid h) :
    Outcome h (fun _ a b => a = b) (verifyRef E H grow pub id msg r s h) (.ok (verify E H pub id (msg.read h) r s)) := by
  unfold verifyRef verify
  dsimp only
  have kr := KeptHeap.refl h
  by_cases h1 : pub.curve.N = 0
  · rw [if_pos h1, if_pos h1]; exact ⟨kr, rfl⟩
  rw [if_neg h1, if_neg h1]
  by_cases h2 : r ≤ 0 ∨ r ≥ pub.curve.N ∨ s ≤ 0 ∨ s ≥ pub.curve.N
  · rw [if_pos h2, if_pos h2]; exact ⟨kr, rfl⟩
  rw [if_neg h2, if_neg h2]
  by_cases h3 : (r + s) % pub.curve.N ≤ 0
  · rw [if_pos h3, if_pos h3]; exact ⟨kr, rfl⟩
  rw [if_neg h3, if_neg h3]
  generalize combine E pub s.toNat ((r + s) % pub.curve.N).toNat = q
  by_cases h4 : q.1 = 0 ∧ q.2 = 0
  · rw [if_pos h4, if_pos h4]; exact ⟨kr, rfl⟩
  rw [if_neg h4, if_neg h4]
  unfold verifyEndRef
  rcases getZRef_ok H grow msg pub id h hv with ⟨m, e, v⟩ | ⟨h1, s, mz, e, v, k1, er⟩
  · rw [e, v]
    exact ⟨kr, rfl⟩
  rw [e, v]
  dsimp only
  rw [er, (whole_alloc h1 (H mz)).read]
  exact ⟨k1.trans (kept_alloc h1 _), rfl⟩

end SM2
end Verif
