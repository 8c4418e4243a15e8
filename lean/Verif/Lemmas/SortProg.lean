import Verif.Model.SortProg
import Verif.Lemmas.Keypair
/-!
# Lemmas about sorting programs
-/
namespace Verif.Keypair

variable {α β : Type}

/-- Whatever happens, the slice is a permutation of what it was. -/
theorem run_perm (lt : α → α → Res Bool) (p : SortProg) (l : List α) : (p.run lt l).2.Perm l := by
  induction p generalizing l with
  | done => exact List.Perm.refl _
  | less i j k ih =>
    rw [SortProg.run]
    split
    · split
      · exact ih _ _
      · exact List.Perm.refl _
      · exact List.Perm.refl _
    · exact List.Perm.refl _
  | swap i j k ih =>
    rw [SortProg.run]
    split
    · rename_i a b ha hb
      obtain ⟨hi, rfl⟩ := List.getElem?_eq_some_iff.1 ha
      obtain ⟨hj, rfl⟩ := List.getElem?_eq_some_iff.1 hb
      exact (ih _).trans (List.set_set_perm hi hj)
    · exact List.Perm.refl _

/-- Sorting keys with tags is sorting the keys. -/
theorem run_map (f : β → α) (lt : α → α → Res Bool) (p : SortProg) (l : List β) :
    p.run lt (l.map f) = ((p.run (fun a b => lt (f a) (f b)) l).1,
      (p.run (fun a b => lt (f a) (f b)) l).2.map f) := by
  induction p generalizing l with
  | done => rfl
  | less i j k ih =>
    rw [SortProg.run, SortProg.run, List.getElem?_map, List.getElem?_map]
    cases l[i]? with
    | none => rfl
    | some a =>
      cases l[j]? with
      | none => rfl
      | some b =>
        simp only [Option.map_some]
        cases lt (f a) (f b) with
        | ok r => exact ih _ _
        | err m => rfl
        | panic m => rfl
  | swap i j k ih =>
    rw [SortProg.run, SortProg.run, List.getElem?_map, List.getElem?_map]
    cases l[i]? with
    | none => rfl
    | some a =>
      cases l[j]? with
      | none => rfl
      | some b =>
        simp only [Option.map_some]
        rw [← List.map_set, ← List.map_set]
        exact ih _

/-- A run that returned takes the same path with every order that gives the same answers. -/
theorem run_agree (lt : α → α → Res Bool) (o : α → α → Bool) (p : SortProg) (l l' : List α)
    (hag : ∀ a ∈ l, ∀ b ∈ l, ∀ r, lt a b = .ok r → o a b = r) (h : p.run lt l = (.returned, l')) :
    p.run (fun a b => .ok (o a b)) l = (.returned, l') := by
  induction p generalizing l with
  | done => exact h
  | less i j k ih =>
    rw [SortProg.run] at h ⊢
    split at h
    · rename_i a b ha hb
      simp only
      split at h
      · rename_i r hr
        rw [hag a (List.mem_of_getElem? ha) b (List.mem_of_getElem? hb) r hr]
        exact ih _ _ hag h
      · cases h
      · cases h
    · cases h
  | swap i j k ih =>
    rw [SortProg.run] at h ⊢
    split at h
    · rename_i a b ha hb
      obtain ⟨hi, rfl⟩ := List.getElem?_eq_some_iff.1 ha
      obtain ⟨hj, rfl⟩ := List.getElem?_eq_some_iff.1 hb
      have hm := List.set_set_perm hi hj
      exact ih _ (fun x hx y hy => hag x (hm.mem_iff.1 hx) y (hm.mem_iff.1 hy)) h
    · cases h

/-- Two orders that are compatible with the answers of `Less` put `b` and `x` in different orders: then the
run cannot have returned. -/
theorem adversary (P : Nat → SortProg) (hP : SortsCorrectly P) (lt : α → α → Res Bool) (l l' : List α)
    (h : (P l.length).run lt l = (.returned, l')) (rA rB : α → List Nat)
    (hA : ∀ a ∈ l, ∀ b ∈ l, ∀ r, lt a b = .ok r → decide (rA a < rA b) = r)
    (hB : ∀ a ∈ l, ∀ b ∈ l, ∀ r, lt a b = .ok r → decide (rB a < rB b) = r)
    (b x : α) (hb : b ∈ l) (hx : x ∈ l) (h1 : rA b < rA x) (h2 : rB x < rB b) : False := by
  have key : ∀ r : α → List Nat, (∀ a ∈ l, ∀ b ∈ l, ∀ s, lt a b = .ok s → decide (r a < r b) = s) →
      l'.Pairwise (fun a b => decide (r b < r a) = false) := by
    intro r hr
    obtain ⟨s, hs, hp⟩ := hP α (fun a b => decide (r a < r b)) l
      (fun a _ => by simp)
      (fun a _ b _ c _ => by simp only [decide_eq_true_eq]; exact lt_trans)
      (fun a _ b _ c _ => by
        simp only [decide_eq_false_iff_not, not_lt]; exact fun h1 h2 => le_trans h2 h1)
    rw [run_agree lt _ _ l l' hr h] at hs
    obtain rfl : l' = s := (Prod.ext_iff.1 hs).2
    exact hp
  have hp : l'.Perm l := by
    have := run_perm lt (P l.length) l
    rwa [h] at this
  have pA := List.pairwise_iff_getElem.1 (key rA hA)
  have pB := List.pairwise_iff_getElem.1 (key rB hB)
  obtain ⟨i, hi, ei⟩ := List.getElem_of_mem (hp.mem_iff.2 hb)
  obtain ⟨j, hj, ej⟩ := List.getElem_of_mem (hp.mem_iff.2 hx)
  rcases lt_trichotomy i j with hij | hij | hij
  · have := pB i j hi hj hij
    rw [ei, ej] at this
    simp [h2] at this
  · subst hij
    rw [ei] at ej
    subst ej
    exact lt_irrefl _ h1
  · have := pA j i hj hi hij
    rw [ei, ej] at this
    simp [h1] at this

/-- `lt` never panics and agrees with an order: the run returns, sorted. -/
theorem run_ok (P : Nat → SortProg) (hP : SortsCorrectly P) (lt : α → α → Res Bool) (l : List α)
    (r : α → List Nat) (hr : ∀ a ∈ l, ∀ b ∈ l, lt a b = .ok (decide (r a < r b))) :
    ∃ s, (P l.length).run lt l = (.returned, s) ∧ s.Pairwise (fun a b => r a ≤ r b) := by
  obtain ⟨s, hs, hp⟩ := hP α (fun a b => decide (r a < r b)) l
    (fun a _ => by simp)
    (fun a _ b _ c _ => by simp only [decide_eq_true_eq]; exact lt_trans)
    (fun a _ b _ c _ => by
      simp only [decide_eq_false_iff_not, not_lt]; exact fun h1 h2 => le_trans h2 h1)
  refine ⟨s, ?_, hp.imp (by simp)⟩
  rw [← hs]
  generalize P l.length = p
  clear hs hp
  induction p generalizing l with
  | done => rfl
  | less i j k ih =>
    rw [SortProg.run, SortProg.run]
    split
    · rename_i a b ha hb
      rw [hr a (List.mem_of_getElem? ha) b (List.mem_of_getElem? hb)]
      exact ih _ _ hr
    · rfl
  | swap i j k ih =>
    rw [SortProg.run, SortProg.run]
    split
    · rename_i a b ha hb
      obtain ⟨hi, rfl⟩ := List.getElem?_eq_some_iff.1 ha
      obtain ⟨hj, rfl⟩ := List.getElem?_eq_some_iff.1 hb
      have hm := List.set_set_perm hi hj
      exact ih _ (fun x hx y hy => hr x (hm.mem_iff.1 hx) y (hm.mem_iff.1 hy))
    · rfl

/-! ## `Less` -/

/-- The first component of the order, 0 for keys of unknown type. -/
def typeRank : PublicKey → Nat
  | .ec .ecdsa _ => 0x12
  | .ec .sm2 _ => 0x13
  | .ec (.other _) _ => 0
  | .ed _ => 0x14
  | .eth _ => 0x15
  | .unknown => 0

/-- The order within a type, if defined. -/
def innerRank (E : Ext) : PublicKey → Option (List Nat)
  | .ec (.other _) _ => none
  | .ec _ p => match getCurveLabel E p.curve with
    | .ok l => some [l.toNat, p.x, p.y]
    | _ => none
  | .ed b => some (b.map BitVec.toNat)
  | .eth p => some [p.x, p.y]
  | .unknown => none

/-- `Less` on all pairs of keys. -/
theorem less_rank (E : Ext) (a b : PublicKey) :
    (∃ r, less E a b = .ok r ∧ typeRank a ≠ 0 ∧ typeRank b ≠ 0 ∧ typeRank a ≠ typeRank b ∧
      r = decide (typeRank a < typeRank b)) ∨
    (∃ ra rb, less E a b = .ok (decide (ra < rb)) ∧ typeRank a ≠ 0 ∧ typeRank a = typeRank b ∧
      innerRank E a = some ra ∧ innerRank E b = some rb) ∨
    ((∃ m, less E a b = .panic m) ∧ (typeRank a = 0 ∨ typeRank b = 0 ∨ (typeRank a = typeRank b ∧
      (innerRank E a = none ∨ innerRank E b = none)))) := by
  have hec : ∀ (alg : Alg) (p q : ECPub), (alg = .ecdsa ∨ alg = .sm2) →
      (∃ ra rb, less E (.ec alg p) (.ec alg q) = .ok (decide (ra < rb)) ∧
        innerRank E (.ec alg p) = some ra ∧ innerRank E (.ec alg q) = some rb) ∨
      ((∃ m, less E (.ec alg p) (.ec alg q) = .panic m) ∧
        (innerRank E (.ec alg p) = none ∨ innerRank E (.ec alg q) = none)) := by
    intro alg p q halg
    rcases halg with rfl | rfl <;>
    · simp only [less, getKeyType, innerRank, ne_eq, not_true_eq_false, if_false]
      cases getCurveLabel E p.curve with
      | err m => exact Or.inr ⟨⟨m, rfl⟩, Or.inl rfl⟩
      | panic m => exact Or.inr ⟨⟨m, rfl⟩, Or.inl rfl⟩
      | ok ca =>
        cases getCurveLabel E q.curve with
        | err m => exact Or.inr ⟨⟨m, rfl⟩, Or.inr rfl⟩
        | panic m => exact Or.inr ⟨⟨m, rfl⟩, Or.inr rfl⟩
        | ok cb =>
          refine Or.inl ⟨_, _, ?_, rfl, rfl⟩
          simp only [List.cons_lt_cons_iff]
          by_cases h : ca = cb
          · subst h
            by_cases hx : p.x = q.x
            · simp [hx]
            · simp [hx]
          · have : ¬ ca.toNat = cb.toNat := fun e => h (BitVec.eq_of_toNat_eq e)
            simp [h, this]
  rcases a with ⟨_ | _ | n, p⟩ | b0 | p | _ <;> rcases b with ⟨_ | _ | n', q⟩ | b1 | q | _ <;>
    first
    | (refine Or.inr (Or.inr ⟨⟨_, rfl⟩, ?_⟩); simp [typeRank]; done)
    | (refine Or.inl ⟨_, rfl, ?_⟩; simp [typeRank]; done)
    | (refine Or.inl ⟨_, rfl, ?_⟩; decide)
    | skip
  · rcases hec .ecdsa p q (Or.inl rfl) with ⟨ra, rb, h1, h2, h3⟩ | ⟨h1, h2⟩
    · exact Or.inr (Or.inl ⟨ra, rb, h1, by simp [typeRank], rfl, h2, h3⟩)
    · exact Or.inr (Or.inr ⟨h1, Or.inr (Or.inr ⟨rfl, h2⟩)⟩)
  · rcases hec .sm2 p q (Or.inr rfl) with ⟨ra, rb, h1, h2, h3⟩ | ⟨h1, h2⟩
    · exact Or.inr (Or.inl ⟨ra, rb, h1, by simp [typeRank], rfl, h2, h3⟩)
    · exact Or.inr (Or.inr ⟨h1, Or.inr (Or.inr ⟨rfl, h2⟩)⟩)
  · refine Or.inr (Or.inl ⟨_, _, ?_, by simp [typeRank], rfl, rfl, rfl⟩)
    simp [less, getKeyType, bytesLt_eq]
  · refine Or.inr (Or.inl ⟨_, _, ?_, by simp [typeRank], rfl, rfl, rfl⟩)
    simp only [less, getKeyType, ne_eq, not_true_eq_false, if_false, List.cons_lt_cons_iff]
    by_cases hx : p.x = q.x
    · simp [hx]
    · simp [hx]

theorem typeRank_lt (k : PublicKey) : typeRank k < 100 := by
  rcases k with ⟨_ | _ | n, p⟩ | b0 | p | _ <;> simp [typeRank]

/-- The key `b` is put first (`z = [t, 0]`) or last, all others in their place. -/
def withRank (E : Ext) (b : PublicKey × Nat) (z : List Nat) (x : PublicKey × Nat) : List Nat :=
  if x = b then z else
    match innerRank E x.1 with
    | none => [typeRank x.1, 1]
    | some r => typeRank x.1 :: 2 :: r

theorem withRank_agree (E : Ext) (b : PublicKey × Nat) (z : List Nat)
    (hb : typeRank b.1 = 0 ∨ innerRank E b.1 = none) (hz : typeRank b.1 ≠ 0 → ∃ w, z = typeRank b.1 :: w)
    (x y : PublicKey × Nat) (r : Bool) (h : less E x.1 y.1 = .ok r) :
    decide (withRank E b z x < withRank E b z y) = r := by
  have hhead : ∀ x : PublicKey × Nat, typeRank x.1 ≠ 0 → ∃ w, withRank E b z x = typeRank x.1 :: w := by
    intro x hx
    unfold withRank
    split_ifs with hxb
    · subst hxb; exact hz hx
    · split
      · exact ⟨_, rfl⟩
      · exact ⟨_, rfl⟩
  rcases less_rank E x.1 y.1 with ⟨r', h', hx, hy, hne, hr⟩ | ⟨ra, rb, h', h0, ht, ha, hb'⟩ | ⟨⟨m, hm⟩, _⟩
  · rw [h] at h'
    cases h'
    obtain ⟨w, hw⟩ := hhead x hx
    obtain ⟨w', hw'⟩ := hhead y hy
    rw [hw, hw', hr]
    simp [List.cons_lt_cons_iff, hne]
  · rw [h] at h'
    cases h'
    have hxb : ∀ u : PublicKey × Nat, typeRank u.1 ≠ 0 → innerRank E u.1 ≠ none → u ≠ b := by
      rintro u h1 h2 rfl
      exact hb.elim h1 h2
    unfold withRank
    rw [if_neg (hxb x h0 (by simp [ha])), if_neg (hxb y (ht ▸ h0) (by simp [hb'])), ha, hb']
    simp [List.cons_lt_cons_iff, ht]
  · rw [h] at hm
    cases hm

/-- Two keys at different places that `Less` cannot compare: no correct sorting program returns. -/
theorem incomparable (E : Ext) (P : Nat → SortProg) (hP : SortsCorrectly P) (l : List PublicKey)
    (i j : Nat) (hi : i < l.length) (hj : j < l.length) (hij : i ≠ j) (m : String)
    (h : less E l[i] l[j] = .panic m) : ∃ m', (sortInPlace E P l).1 = .panicked m' := by
  cases hend : (sortInPlace E P l).1 with
  | panicked m' => exact ⟨m', rfl⟩
  | returned =>
    exfalso
    unfold sortInPlace at hend
    have hl : l = l.zipIdx.map Prod.fst := by simp
    have hlen : l.length = l.zipIdx.length := by simp
    have hrun := run_map (β := PublicKey × Nat) Prod.fst (less E) (P l.length) l.zipIdx
    rw [← hl] at hrun
    rw [hrun] at hend
    simp only at hend
    have hrun' : (P l.zipIdx.length).run (fun a b => less E a.1 b.1) l.zipIdx =
        (.returned, ((P l.length).run (fun a b => less E a.1 b.1) l.zipIdx).2) := by
      rw [← hlen]
      exact Prod.ext hend rfl
    have main : ∀ b x : PublicKey × Nat, b ∈ l.zipIdx → x ∈ l.zipIdx → b ≠ x →
        (typeRank b.1 = 0 ∨ (typeRank x.1 = typeRank b.1 ∧ innerRank E b.1 = none)) → False := by
      intro b x hb hx hbx hbad
      have hbad' : typeRank b.1 = 0 ∨ innerRank E b.1 = none := hbad.imp_right And.right
      have hxr : ∀ z, ∃ w s, (s = 1 ∨ s = 2) ∧ withRank E b z x = typeRank x.1 :: s :: w := by
        intro z
        unfold withRank
        rw [if_neg hbx.symm]
        split
        · exact ⟨[], 1, Or.inl rfl, rfl⟩
        · exact ⟨_, 2, Or.inr rfl, rfl⟩
      have hbr : ∀ z, withRank E b z b = z := fun z => by simp [withRank]
      refine adversary P hP (fun a b => less E a.1 b.1) l.zipIdx _ hrun'
        (withRank E b [typeRank b.1, 0])
        (withRank E b (if typeRank b.1 = 0 then [100] else [typeRank b.1, 3]))
        (fun a _ c _ r hr => withRank_agree E b _ hbad' (fun _ => ⟨_, rfl⟩) a c r hr)
        (fun a _ c _ r hr => withRank_agree E b _ hbad' (fun h0 => ⟨[3], by rw [if_neg h0]⟩) a c r hr)
        b x hb hx ?_ ?_
      · rw [hbr]
        obtain ⟨w, s, hs, hw⟩ := hxr [typeRank b.1, 0]
        rw [hw]
        simp only [List.cons_lt_cons_iff]
        rcases hbad with h0 | ⟨h0, _⟩
        · rw [h0]
          rcases hs with rfl | rfl <;> omega
        · rw [h0]
          rcases hs with rfl | rfl <;> omega
      · rw [hbr]
        obtain ⟨w, s, hs, hw⟩ := hxr (if typeRank b.1 = 0 then [100] else [typeRank b.1, 3])
        rw [hw]
        have := typeRank_lt x.1
        by_cases h0 : typeRank b.1 = 0
        · rw [if_pos h0]
          simp only [List.cons_lt_cons_iff]
          exact Or.inl this
        · rw [if_neg h0, (hbad.resolve_left h0).1]
          simp only [List.cons_lt_cons_iff]
          rcases hs with rfl | rfl <;> simp
    have mi : (l[i], i) ∈ l.zipIdx := by
      rw [List.mem_iff_getElem]; exact ⟨i, by simpa using hi, by simp⟩
    have mj : (l[j], j) ∈ l.zipIdx := by
      rw [List.mem_iff_getElem]; exact ⟨j, by simpa using hj, by simp⟩
    have hne : (l[i], i) ≠ (l[j], j) := fun e => hij (Prod.ext_iff.1 e).2
    rcases less_rank E l[i] l[j] with ⟨r', h', _⟩ | ⟨ra, rb, h', _⟩ | ⟨_, h0 | h0 | ⟨ht, h0 | h0⟩⟩
    · rw [h] at h'; cases h'
    · rw [h] at h'; cases h'
    · exact main _ _ mi mj hne (Or.inl h0)
    · exact main _ _ mj mi hne.symm (Or.inl h0)
    · exact main _ _ mi mj hne (Or.inr ⟨ht.symm, h0⟩)
    · exact main _ _ mj mi hne.symm (Or.inr ⟨ht, h0⟩)

/-! ## Insertion sort meets the contract -/

/-- The inner loop: `s` is sorted, then comes `a`, then `t`, which is sorted, above `a` and above `s`. -/
theorem inner_run (lt : α → α → Bool) (k : SortProg) (s : List α) (a : α) (t rest : List α)
    (hirr : ∀ x ∈ s ++ a :: t, ∀ y ∈ s ++ a :: t, lt x y = true → lt y x = false)
    (hneg : ∀ x ∈ s ++ a :: t, ∀ y ∈ s ++ a :: t, ∀ z ∈ s ++ a :: t,
      lt x y = false → lt y z = false → lt x z = false)
    (hst : (s ++ t).Pairwise (fun x y => lt y x = false)) (hat : ∀ y ∈ t, lt y a = false) :
    ∃ u, u.Perm (s ++ a :: t) ∧ u.Pairwise (fun x y => lt y x = false) ∧
      (insertionInner s.length k).run (fun x y => .ok (lt x y)) (s ++ a :: t ++ rest) =
        k.run (fun x y => .ok (lt x y)) (u ++ rest) := by
  induction s using List.reverseRecOn generalizing t with
  | nil =>
    refine ⟨a :: t, List.Perm.refl _, List.pairwise_cons.2 ⟨hat, by simpa using hst⟩, ?_⟩
    simp [insertionInner]
  | append_singleton s b ih =>
    have e1 : (s ++ [b] ++ a :: t ++ rest)[s.length + 1]? = some a := by
      simp [List.append_assoc]
    have e2 : (s ++ [b] ++ a :: t ++ rest)[s.length]? = some b := by
      simp [List.append_assoc]
    rw [show (s ++ [b]).length = s.length + 1 by simp, insertionInner, SortProg.run, e1, e2]
    simp only
    by_cases hab : lt a b = true
    · rw [hab]
      simp only [if_true]
      rw [SortProg.run, e1, e2]
      have e3 : (((s ++ [b] ++ a :: t ++ rest).set (s.length + 1) b).set s.length a) =
          s ++ a :: (b :: t) ++ rest := by
        simp [List.append_assoc, List.set_append]
      simp only
      rw [e3]
      have hperm : (s ++ a :: (b :: t)).Perm (s ++ [b] ++ a :: t) := by
        rw [List.append_assoc]
        exact (List.Perm.swap b a t).append_left s
      obtain ⟨u, hu, hs, hr⟩ := ih (b :: t)
        (fun x hx y hy => hirr x (hperm.mem_iff.1 hx) y (hperm.mem_iff.1 hy))
        (fun x hx y hy z hz => hneg x (hperm.mem_iff.1 hx) y (hperm.mem_iff.1 hy) z (hperm.mem_iff.1 hz))
        (by simpa [List.append_assoc] using hst)
        (by
          intro y hy
          rcases List.mem_cons.1 hy with rfl | hy
          · exact hirr a (by simp) y (by simp) hab
          · exact hat y hy)
      exact ⟨u, hu.trans hperm, hs, hr⟩
    · rw [Bool.not_eq_true] at hab
      rw [hab]
      refine ⟨s ++ [b] ++ a :: t, List.Perm.refl _, ?_, by simp⟩
      rw [List.pairwise_append] at hst ⊢
      refine ⟨hst.1, List.pairwise_cons.2 ⟨hat, hst.2.1⟩, ?_⟩
      intro x hx y hy
      rcases List.mem_cons.1 hy with rfl | hy
      · rcases List.mem_append.1 hx with hx' | hx'
        · have := (List.pairwise_append.1 hst.1).2.2 x hx' b (by simp)
          exact hneg y (by simp) b (by simp) x (by simp [hx']) hab this
        · rw [List.mem_singleton] at hx'
          rw [hx']; exact hab
      · exact hst.2.2 x hx y hy

theorem outer_run (lt : α → α → Bool) (s rest : List α) (hs0 : s ≠ [])
    (hirr : ∀ x ∈ s ++ rest, ∀ y ∈ s ++ rest, lt x y = true → lt y x = false)
    (hneg : ∀ x ∈ s ++ rest, ∀ y ∈ s ++ rest, ∀ z ∈ s ++ rest,
      lt x y = false → lt y z = false → lt x z = false)
    (hs : s.Pairwise (fun x y => lt y x = false)) :
    ∃ u, (insertionOuter rest.length s.length).run (fun x y => .ok (lt x y)) (s ++ rest) = (.returned, u) ∧
      u.Pairwise (fun x y => lt y x = false) := by
  induction rest generalizing s with
  | nil => exact ⟨s, by simp [insertionOuter, SortProg.run], hs⟩
  | cons a rest ih =>
    have hsub : ∀ x, x ∈ s ++ a :: [] → x ∈ s ++ a :: rest := by
      intro x hx
      simp only [List.mem_append, List.mem_cons, List.not_mem_nil, or_false] at hx ⊢
      rcases hx with h | h
      · exact Or.inl h
      · exact Or.inr (Or.inl h)
    obtain ⟨u, hu, hup, hr⟩ := inner_run lt (insertionOuter rest.length (s.length + 1)) s a [] rest
      (fun x hx y hy => hirr x (hsub x hx) y (hsub y hy))
      (fun x hx y hy z hz => hneg x (hsub x hx) y (hsub y hy) z (hsub z hz))
      (by simpa using hs) (by simp)
    have hl : u.length = s.length + 1 := by simpa using hu.length_eq
    have hmem : ∀ x, x ∈ u ++ rest → x ∈ s ++ a :: rest := by
      intro x hx
      rcases List.mem_append.1 hx with h | h
      · exact hsub x (hu.mem_iff.1 h)
      · simp [h]
    obtain ⟨v, hv, hvp⟩ := ih u (by intro e; rw [e] at hl; simp at hl)
      (fun x hx y hy => hirr x (hmem x hx) y (hmem y hy))
      (fun x hx y hy z hz => hneg x (hmem x hx) y (hmem y hy) z (hmem z hz)) hup
    refine ⟨v, ?_, hvp⟩
    rw [List.length_cons, insertionOuter, show s ++ a :: rest = s ++ a :: [] ++ rest by simp, hr, ← hl]
    exact hv

theorem insertionSort_correct : SortsCorrectly insertionSort := by
  intro α lt l h1 h2 h3
  have hirr : ∀ x ∈ l, ∀ y ∈ l, lt x y = true → lt y x = false := by
    intro x hx y hy h
    cases h' : lt y x with
    | false => rfl
    | true =>
      have := h2 x hx y hy x hx h h'
      rw [h1 x hx] at this
      cases this
  cases l with
  | nil => exact ⟨[], rfl, List.Pairwise.nil⟩
  | cons a rest =>
    exact outer_run lt [a] rest (by simp) hirr h3 (List.pairwise_singleton _ _)

end Verif.Keypair
