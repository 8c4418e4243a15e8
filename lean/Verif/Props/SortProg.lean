import Verif.Lemmas.SortProg
import Verif.Props.Keypair
import Verif.Props.KeyGen
/-!
# C108: sorting keys, call by call

`SortPublicKeys` with any sorting program: what is in the caller's slice when it ends, when it panics, and
that it cannot return if the list has keys that have no place in the order.
-/
namespace Verif.Props
open Verif.Keypair Verif.Spec

/-- **C108** Whatever the sorting program does, and whether it returns or panics: no key is lost, added or
changed. The caller's slice has the same keys. -/
theorem C108_keys_kept (E : Ext) (P : Nat → SortProg) (l : List PublicKey) :
    (sortInPlace E P l).2.Perm l :=
  run_perm _ _ _

/-- **C108** Keys of known type and curve: the call returns and the caller's slice is in the documented
order; it is the result of C22 for the same sorting program. -/
theorem C108_returns (E : Ext) (hE : GoodName E.k1name) (P : Nat → SortProg) (hP : SortsCorrectly P)
    (l : List PublicKey) (hl : ∀ k ∈ l, Sortable E k) :
    (sortInPlace E P l).1 = .returned ∧
      (sortInPlace E P l).2.Pairwise fun a b =>
        ∀ r s, SortRank E.k1name a r → SortRank E.k1name b s → r ≤ s := by
  classical
  have hr : ∀ k ∈ l, SortRank E.k1name k (if h : Sortable E k then h.choose else []) := by
    intro k hk
    rw [dif_pos (hl k hk)]
    exact (hl k hk).choose_spec
  obtain ⟨s, hs, hp⟩ := run_ok P hP (less E) l (fun k => if h : Sortable E k then h.choose else [])
    (fun a ha b hb => less_eq E hE (hr a ha) (hr b hb))
  have hperm := C108_keys_kept E P l
  unfold sortInPlace at hperm ⊢
  rw [hs] at hperm ⊢
  refine ⟨rfl, hp.imp_of_mem ?_⟩
  intro a b ha hb h r s hra hsb
  rw [rank_unique hra (hr a (hperm.mem_iff.1 ha)), rank_unique hsb (hr b (hperm.mem_iff.1 hb))]
  exact h

/-- **C108** The order that the slice ends in depends neither on the order it started in nor on the sorting
program. -/
theorem C108_canonical (E : Ext) (hE : GoodName E.k1name) (P P' : Nat → SortProg) (hP : SortsCorrectly P)
    (hP' : SortsCorrectly P') (l l' : List PublicKey) (hperm : l.Perm l') (hl : ∀ k ∈ l, Sortable E k)
    (heth : ∀ p, PublicKey.eth p ∈ l → p.curve = ethCurve E) :
    sortInPlace E P l = sortInPlace E P' l' := by
  obtain ⟨h1, hs⟩ := C108_returns E hE P hP l hl
  obtain ⟨h1', hs'⟩ := C108_returns E hE P' hP' l' (fun k hk => hl k (hperm.mem_iff.2 hk))
  have hp := C108_keys_kept E P l
  have hp' := C108_keys_kept E P' l'
  refine Prod.ext (h1.trans h1'.symm) ?_
  refine List.Perm.eq_of_pairwise ?_ hs hs' (hp.trans (hperm.trans hp'.symm))
  intro a b ha hb h1 h2
  have ha' := hp.mem_iff.1 ha
  have hb' := hperm.mem_iff.2 (hp'.mem_iff.1 hb)
  obtain ⟨r, hr⟩ := hl a ha'
  obtain ⟨s, hs⟩ := hl b hb'
  have e := le_antisymm (h1 r s hr hs) (h2 s r hs hr)
  subst e
  exact rank_inj hr hs (fun p hp => heth p (hp ▸ ha')) (fun p hp => heth p (hp ▸ hb'))

/-- **C108** A list of two or more keys, one of them of an unknown type, is never returned as sorted: every
correct sorting program has to ask `Less` about that key, and the call panics. -/
theorem C108_unknown_type (E : Ext) (P : Nat → SortProg) (hP : SortsCorrectly P) (l : List PublicKey)
    (h2 : 2 ≤ l.length) (k : PublicKey) (hk : k ∈ l)
    (hu : k = .unknown ∨ ∃ n p, k = .ec (.other n) p) :
    ∃ m, (sortInPlace E P l).1 = .panicked m := by
  obtain ⟨i, hi, rfl⟩ := List.getElem_of_mem hk
  have hp : ∀ b, ∃ m, less E l[i] b = .panic m := by
    intro b
    rcases less_rank E l[i] b with ⟨_, _, h, _⟩ | ⟨_, _, _, h, _⟩ | ⟨h, _⟩
    · exfalso; apply h; rcases hu with h | ⟨n, p, h⟩ <;> rw [h] <;> rfl
    · exfalso; apply h; rcases hu with h | ⟨n, p, h⟩ <;> rw [h] <;> rfl
    · exact h
  obtain ⟨j, hj, hij⟩ : ∃ j, j < l.length ∧ i ≠ j := by
    by_cases h0 : i = 0
    · exact ⟨1, by omega, by omega⟩
    · exact ⟨0, by omega, h0⟩
  obtain ⟨m, hm⟩ := hp l[j]
  exact incomparable E P hP l i j hi hj hij m hm

/-- **C108** Two ECDSA keys, or two SM2 keys, one of them on a curve whose name `GetNamedCurveLabel` does not
know: the call panics, whatever else is in the list. -/
theorem C108_unknown_curve (E : Ext) (P : Nat → SortProg) (hP : SortsCorrectly P) (l : List PublicKey)
    (i j : Nat) (hi : i < l.length) (hj : j < l.length) (hij : i ≠ j) (alg : Alg)
    (halg : alg = .ecdsa ∨ alg = .sm2) (p q : ECPub) (hp : l[i] = .ec alg p) (hq : l[j] = .ec alg q)
    (hu : ∀ lab, getNamedCurveLabel E p.curve.name ≠ .ok lab) :
    ∃ m, (sortInPlace E P l).1 = .panicked m := by
  obtain ⟨m, hm⟩ : ∃ m, less E l[i] l[j] = .panic m := by
    have hnone : innerRank E l[i] = none := by
      rw [hp]
      have : ∀ x : Res Byte, (∀ lab, x ≠ .ok lab) →
          (match x with | .ok l => some [l.toNat, p.x, p.y] | _ => none) = (none : Option (List Nat)) := by
        intro x hx
        cases x with
        | ok l => exact absurd rfl (hx l)
        | err _ => rfl
        | panic _ => rfl
      rcases halg with rfl | rfl <;> exact this _ hu
    have ht : typeRank l[i] = typeRank l[j] := by
      rw [hp, hq]; rcases halg with rfl | rfl <;> rfl
    rcases less_rank E l[i] l[j] with ⟨_, _, _, _, h, _⟩ | ⟨_, _, _, _, _, h, _⟩ | ⟨h, _⟩
    · exact absurd ht h
    · rw [hnone] at h; cases h
    · exact h
  exact incomparable E P hP l i j hi hj hij m hm

/-! ## Non-vacuity -/

/-- Package sort's insertion sort meets the contract. -/
example : SortsCorrectly insertionSort := insertionSort_correct

/-- A list that is sorted by it. -/
example : sortInPlace refExt insertionSort [PublicKey.ed [7], .ec .sm2 ⟨Curves.sm2, 3, 4⟩,
      .ec .ecdsa ⟨Curves.p256, 5, 6⟩, .ed [3, 2]] =
    (.returned, [.ec .ecdsa ⟨Curves.p256, 5, 6⟩, .ec .sm2 ⟨Curves.sm2, 3, 4⟩, .ed [3, 2], .ed [7]]) := by
  decide +kernel

/-- A list with an unknown key: the call panics in the middle, with two keys already exchanged. -/
example : (sortInPlace refExt insertionSort [.ed [7], .ec .sm2 ⟨Curves.sm2, 3, 4⟩, .unknown]).2 =
      [.ec .sm2 ⟨Curves.sm2, 3, 4⟩, .ed [7], .unknown] ∧
    ∃ m, (sortInPlace refExt insertionSort [.ed [7], .ec .sm2 ⟨Curves.sm2, 3, 4⟩, .unknown]).1 = .panicked m :=
  ⟨by decide +kernel, C108_unknown_type refExt _ insertionSort_correct _ (by simp) .unknown (by simp) (Or.inl rfl)⟩

/-- A curve without a label; alone among keys of another type it does not matter. -/
example : (∀ lab, getNamedCurveLabel refExt "curve" ≠ .ok lab) ∧
    (sortInPlace refExt insertionSort [.ed [7], .ec .ecdsa ⟨{ Curves.p256 with name := "curve" }, 3, 4⟩]).1 =
      .returned := by
  refine ⟨?_, by decide +kernel⟩
  have : getNamedCurveLabel refExt "curve" = .err "unsupported elliptic curve" := by decide +kernel
  intro lab
  rw [this]
  simp

end Verif.Props
