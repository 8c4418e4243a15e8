import Verif.Lemmas.BigConc
import Verif.Props.Big
/-!
# C127: histories of calls on keys that earlier calls returned
-/
namespace Verif.Props

open Verif.Big

/-- C127: any number of goroutines each make any sequence of calls, on objects that were there before and on keys,
signatures and numbers that their own earlier calls returned, and change numbers of their own in between. However their
steps are interleaved, a goroutine that has ended has ended with a value that its history gives when every call returns
the right result for the values at that time, in objects that did not exist before, and leaves all others alone; and the
objects it can reach have the values that this history gives. -/
theorem C127_right {n : Nat} {α : Fin n → Type} (clients : (i : Fin n) → Client (α i)) (m₀ : Mem)
    (h : ∀ i, (clients i).Proper (i + 1) m₀ 0)
    (s : Conf α) (hs : Relation.ReflTransGen Conf.Step (startClients clients m₀) s)
    (i : Fin n) (a : α i) (ha : s.prog i = .ret a) :
    ∃ m', (clients i).Gives (i + 1) m₀ 0 a m' ∧ ∀ r : Ref, r.owner = 0 ∨ r.owner = i + 1 → s.mem r = m' r := by
  have inv := inv_reach (s₀ := startClients clients m₀) (fun i => (client_run (by omega) _ (h i)).1) hs
  have hr := inv.ret i
  have hm := inv.mem i
  rw [ha] at hr hm
  have e : a = (exec (i + 1) (clients i).prog m₀ 0).1 := hr
  rw [e]
  exact ⟨_, (client_run (by omega) _ (h i)).2, fun r hr => hm r hr⟩

/-- C127: at every moment all objects that were there before the goroutines started have the values they had. -/
theorem C127_unchanged {n : Nat} {α : Fin n → Type} (clients : (i : Fin n) → Client (α i)) (m₀ : Mem)
    (h : ∀ i, (clients i).Proper (i + 1) m₀ 0)
    (s : Conf α) (hs : Relation.ReflTransGen Conf.Step (startClients clients m₀) s)
    (r : Ref) (hr : r.owner = 0) : s.mem r = m₀ r :=
  (inv_reach (s₀ := startClients clients m₀) (fun i => (client_run (by omega) _ (h i)).1) hs).shared r hr

/-- C127: there are no data races. -/
theorem C127_no_race {n : Nat} {α : Fin n → Type} (clients : (i : Fin n) → Client (α i)) (m₀ : Mem)
    (h : ∀ i, (clients i).Proper (i + 1) m₀ 0)
    (s : Conf α) (hs : Relation.ReflTransGen Conf.Step (startClients clients m₀) s)
    (i j : Fin n) (hij : i ≠ j) (r : Ref) (hw : (s.prog i).Writes (i + 1) (s.count i) r) :
    ¬ (s.prog j).Reads r ∧ ¬ (s.prog j).Writes (j + 1) (s.count j) r :=
  (inv_reach (s₀ := startClients clients m₀) (fun i => (client_run (by omega) _ (h i)).1) hs).no_race i j hij r hw

/-- C127: no goroutine waits for another: from every moment on, any of them can be brought to its end. -/
theorem C127_finishes {n : Nat} {α : Fin n → Type} (s : Conf α) (i : Fin n) :
    ∃ s' a, Relation.ReflTransGen Conf.Step s s' ∧ s'.prog i = .ret a := finish i _ s rfl

/-- C127: the objects of a result differ from all objects that the goroutine could reach before the call; so the keys
that two calls return share no number. -/
theorem C127_new (t n n' : Nat) (ht : t ≠ 0) (r r' : Ref) (h : Made t n n' r) (h' : Before t n r') : r ≠ r' := by
  rintro rfl
  rcases h' with h' | h'
  · exact ht (h.1.symm.trans h')
  · exact absurd h.2.1 (by omega)

/-! A case: a goroutine generates a key pair on the shared curve object, signs with it and verifies the signature with
the new public key; it ends with the answer of `Verify`. -/

/-- Generate, sign, verify. -/
def keyHistory (E : SM2.Ext) (K : Keypair.Ext) (H : Bytes → Bytes) (reads : List Bytes) (rand msg : Bytes) :
    Client (Option Bool) :=
  .call (.generate K sharedCurve .sm2 reads) fun (q : Option (PrivObj × PubObj)) => match q with
    | none => .done none
    | some q => .call (.sign E H ⟨0, 8⟩ 10 rand q.1 [] msg) fun (v : Option (Res (Ref × Ref))) => match v with
      | some (.ok v) => .call (.verify E H q.2 [] msg v.1 v.2) fun (b : Bool) => .done (some b)
      | _ => .done none

theorem keyHistory_proper (E : SM2.Ext) (K : Keypair.Ext) (H : Bytes → Bytes) (reads : List Bytes) (rand msg : Bytes)
    (t : Nat) : (keyHistory E K H reads rand msg).Proper t sharedMem 0 := by
  refine ⟨(sharedPriv_given t 0).1.1, fun q m₁ n₁ hn hr hk => ?_⟩
  cases q with
  | none => trivial
  | some q =>
    obtain ⟨hq, hp⟩ := hr.2 q rfl
    have g := hq.given (sharedPriv_given t 0).1.1 hn hk
    refine ⟨⟨g, rfl, (hk _ (.inl rfl)).trans rfl⟩, fun v m₂ n₂ hn2 hr2 hk2 => ?_⟩
    rcases v with _ | v | v | v
    · trivial
    · obtain ⟨h1, h2, -⟩ := hr2.2 v rfl
      refine ⟨⟨?_, h1.1.before, h2.1.before⟩, fun _ _ _ _ _ _ => trivial⟩
      rw [hp]
      exact g.1.mono hn2 hk2
    · trivial
    · trivial

/-- Two goroutines with this history: what the second ends with is what `Verify` says about the key and the signature
that the model gives, whatever the first does. -/
example (E : SM2.Ext) (K : Keypair.Ext) (H : Bytes → Bytes) (reads : Fin 2 → List Bytes) (rand msg : Fin 2 → Bytes) (s)
    (hs : Relation.ReflTransGen Conf.Step
      (startClients (fun i => keyHistory E K H (reads i) (rand i) (msg i)) sharedMem) s)
    (b : Bool) (ha : s.prog 1 = .ret (some b)) :
    ∃ priv pub r s, Keypair.generateECKeyPair K Curves.sm2 .sm2 (reads 1) = some (.ec .sm2 priv, .ec .sm2 pub) ∧
      SM2.sign E H 10 (rand 1) priv [] (msg 1) = some (.ok (r, s)) ∧ b = SM2.verify E H pub [] (msg 1) r s := by
  obtain ⟨m', hg, -⟩ := C127_right _ _ (fun i => keyHistory_proper E K H (reads i) (rand i) (msg i) _) s hs 1 _ ha
  obtain ⟨q, m₁, n₁, -, hr, hk, hg⟩ := hg
  cases q with
  | none => cases hg.1
  | some q =>
    obtain ⟨v, m₂, n₂, -, hr2, hk2, hg⟩ := hg
    obtain ⟨hq, hp⟩ := hr.2 q rfl
    rcases v with _ | v | v | v
    · cases hg.1
    · obtain ⟨b', m₃, n₃, -, hr3, hk3, hg⟩ := hg
      cases hg.1
      obtain ⟨h1, h2, -⟩ := hr2.2 v rfl
      refine ⟨privVal m₁ q.1, pubVal m₁ q.2, _, _, hr.1.symm, hr2.1.symm, ?_⟩
      have e : pubVal m₂ q.2 = pubVal m₁ q.2 := by
        rw [hp]
        unfold pubVal
        rw [hk2 _ hq.2.2.1.1.before, hk2 _ hq.2.2.2.1.1.before]
      rw [← e, Int.toNat_of_nonneg h1.2, Int.toNat_of_nonneg h2.2]
      exact hr3
    · cases hg.1
    · cases hg.1

/-! What is shared between the results of one call: the two halves of a generated pair have the same coordinates, so
changing the public key that was returned changes the private key. Two calls share nothing. -/

/-- Generate two pairs, overwrite a coordinate of the first public key, and look at both private keys. -/
def halves (K : Keypair.Ext) (reads reads' : List Bytes) (v : Int) : Client (Option (Int × Int)) :=
  .call (.generate K sharedCurve .sm2 reads) fun (q : Option (PrivObj × PubObj)) => match q with
    | none => .done none
    | some q => .call (.generate K sharedCurve .sm2 reads') fun (q' : Option (PrivObj × PubObj)) => match q' with
      | none => .done none
      | some q' => .set q.2.X v (.look q.1.pub.X fun a => .look q'.1.pub.X fun b => .done (some (a, b)))

theorem halves_proper (K : Keypair.Ext) (reads reads' : List Bytes) (v : Int) (t : Nat) :
    (halves K reads reads' v).Proper t sharedMem 0 := by
  have ho := (sharedPriv_given t 0).1.1
  refine ⟨ho, fun q m₁ n₁ hn hr hk => ?_⟩
  cases q with
  | none => trivial
  | some q =>
    obtain ⟨hq, hp⟩ := hr.2 q rfl
    refine ⟨ho.mono hn hk, fun q' m₂ n₂ hn2 hr2 hk2 => ?_⟩
    cases q' with
    | none => trivial
    | some q' =>
      obtain ⟨hq', hp'⟩ := hr2.2 q' rfl
      have hb := hq.2.2.1.1
      rw [hp]
      exact ⟨⟨hb.1, hb.2.2.trans_le hn2⟩, hb.before.mono hn2, hq'.2.2.1.1.before, trivial⟩

/-- C127: writing the value `v` through the public key of a generated pair gives the private key of that pair the
coordinate `v`, and leaves the key of another pair as it was generated. -/
theorem C127_halves (K : Keypair.Ext) (reads reads' : List Bytes) (v : Int) (m' : Mem) (a b : Int) (t : Nat) (ht : t ≠ 0)
    (h : (halves K reads reads' v).Gives t sharedMem 0 (some (a, b)) m') :
    a = v ∧ ∃ k, Keypair.generateECKeyPair K Curves.sm2 .sm2 reads' = some k ∧ ∀ alg key, k.1 = .ec alg key →
      b = key.pub.x := by
  obtain ⟨q, m₁, n₁, -, hr, hk, hg⟩ := h
  cases q with
  | none => cases hg.1
  | some q =>
    obtain ⟨q', m₂, n₂, -, hr2, hk2, hg⟩ := hg
    cases q' with
    | none => cases hg.1
    | some q' =>
      obtain ⟨hq, hp⟩ := hr.2 q rfl
      obtain ⟨hq', hp'⟩ := hr2.2 q' rfl
      have hg := hg.1
      rw [hp] at hg
      have hne : q'.1.pub.X ≠ q.1.pub.X := C127_new t _ _ ht _ _ hq'.2.2.1.1 hq.2.2.1.1.before
      simp only [Mem.put, if_true, if_neg hne, Option.some.injEq, Prod.mk.injEq] at hg
      refine ⟨hg.1, _, hr2.1.symm, fun alg key e => ?_⟩
      cases e
      rw [hg.2]
      exact (Int.toNat_of_nonneg hq'.2.2.1.2).symm

/-- Such a history exists: the goroutine running alone produces one. -/
example (K : Keypair.Ext) (reads reads' : List Bytes) (v : Int) :
    (halves K reads reads' v).Gives 1 sharedMem 0 (exec 1 (halves K reads reads' v).prog sharedMem 0).1
      (exec 1 (halves K reads reads' v).prog sharedMem 0).2.1 :=
  (client_run (by omega) _ (halves_proper K reads reads' v 1)).2

/-- With 32 zero bytes for each pair both are generated, and the first private key has the coordinate that was
written. -/
example (K : Keypair.Ext) : (exec 1 (halves K [zeros 32] [zeros 32] 5).prog sharedMem 0).1 =
    some (5, ((K.baseMult Curves.sm2 (0x42 * 2 ^ 240)).1 : Int)) := by
  have e : Keypair.genScalar Curves.sm2 [zeros 32] = some (0x42 * 2 ^ 240) := by decide +kernel
  generalize 0x42 * 2 ^ 240 = D at e
  obtain ⟨q, m₁, n₁, hn, hr, hk, hg⟩ := (client_run (t := 1) (by omega) _ (halves_proper K [zeros 32] [zeros 32] 5 1)).2
  generalize (exec 1 (halves K [zeros 32] [zeros 32] 5).prog sharedMem 0) = x at hg
  have e' : Keypair.generateECKeyPair K Curves.sm2 .sm2 [zeros 32] =
      some (.ec .sm2 ⟨D, ⟨Curves.sm2, (K.baseMult Curves.sm2 D).1, (K.baseMult Curves.sm2 D).2⟩⟩,
        .ec .sm2 ⟨Curves.sm2, (K.baseMult Curves.sm2 D).1, (K.baseMult Curves.sm2 D).2⟩) := by
    unfold Keypair.generateECKeyPair
    rw [e]
    rfl
  cases q with
  | none => exact absurd (hr.1.trans e') (by simp)
  | some q =>
    obtain ⟨q', m₂, n₂, hn2, hr2, hk2, hg⟩ := hg
    cases q' with
    | none => exact absurd (hr2.1.trans e') (by simp)
    | some q' =>
      obtain ⟨a, b, h⟩ : ∃ a b, x.1 = some (a, b) := ⟨_, _, hg.1⟩
      have hh := C127_halves K [zeros 32] [zeros 32] 5 x.2.1 a b 1 (by omega)
        ⟨some q, m₁, n₁, hn, hr, hk, some q', m₂, n₂, hn2, hr2, hk2, by rw [← h]; exact hg⟩
      obtain ⟨h1, k, hk', h2⟩ := hh
      rw [e'] at hk'
      cases hk'
      rw [h, h1, h2 _ _ rfl]

end Verif.Props
