import Verif.Lemmas.Big
import Verif.Lemmas.BigAmd64
import Verif.Spec.BigCalls
/-!
# Programs that write only to their own objects
-/
set_option linter.unusedSimpArgs false

namespace Verif.Big

/-- An object that goroutine `t` may read. -/
def May (t : Nat) (r : Ref) : Prop := r.owner = 0 ∨ r.owner = t

/-- The program reads shared objects and objects of `t` only, writes objects of `t` only, and its result satisfies `Q`. -/
def Own {α : Type} (t : Nat) (Q : α → Prop) : Prog α → Prop
  | .ret a => Q a
  | .new _ k => ∀ i, Own t Q (k ⟨t, i⟩)
  | .get r k => May t r ∧ ∀ v, Own t Q (k v)
  | .put r _ k => r.owner = t ∧ Own t Q k

section
variable {α β : Type} {t : Nat} {Q : α → Prop}

theorem own_bind (p : Prog β) (f : β → Prog α) : Own t Q (p.bind f) ↔ Own t (fun b => Own t Q (f b)) p := by
  induction p with
  | ret a => exact Iff.rfl
  | new v k ih => exact forall_congr' fun i => ih _
  | get r k ih => exact and_congr Iff.rfl (forall_congr' fun i => ih _)
  | put r v k ih => exact and_congr Iff.rfl ih

theorem own_mono {p : Prog α} {Q' : α → Prop} (h : Own t Q p) (hQ : ∀ a, Q a → Q' a) : Own t Q' p := by
  induction p with
  | ret a => exact hQ a h
  | new v k ih => exact fun i => ih _ (h i)
  | get r k ih => exact ⟨h.1, fun i => ih _ (h.2 i)⟩
  | put r v k ih => exact ⟨h.1, ih h.2⟩

theorem own_ret (a : α) : Own t Q (.ret a) ↔ Q a := Iff.rfl
theorem own_newInt (v : Int) {Q : Ref → Prop} : Own t Q (newInt v) ↔ ∀ i, Q ⟨t, i⟩ := Iff.rfl
theorem own_read (r : Ref) {Q : Int → Prop} : Own t Q (read r) ↔ May t r ∧ ∀ v, Q v := Iff.rfl
theorem own_newPair (q : Nat × Nat) {Q : Ref × Ref → Prop} : Own t Q (newPair q) ↔ ∀ i j, Q (⟨t, i⟩, ⟨t, j⟩) := Iff.rfl

variable {Q : Unit → Prop} (d a b e : Ref) (n : Nat)
theorem own_write (v : Int) : Own t Q (write d v) ↔ d.owner = t ∧ Q () := Iff.rfl
theorem own_set : Own t Q (set d a) ↔ May t a ∧ d.owner = t ∧ Q () := by simp [set, own_bind, own_read, own_write]
theorem own_add : Own t Q (add d a b) ↔ May t a ∧ May t b ∧ d.owner = t ∧ Q () := by
  simp [add, own_bind, own_read, own_write]
theorem own_sub : Own t Q (sub d a b) ↔ May t a ∧ May t b ∧ d.owner = t ∧ Q () := by
  simp [sub, own_bind, own_read, own_write]
theorem own_mul : Own t Q (mul d a b) ↔ May t a ∧ May t b ∧ d.owner = t ∧ Q () := by
  simp [mul, own_bind, own_read, own_write]
theorem own_mod : Own t Q (mod d a b) ↔ May t a ∧ May t b ∧ d.owner = t ∧ Q () := by
  simp [mod, own_bind, own_read, own_write]
theorem own_lsh : Own t Q (lsh d a n) ↔ May t a ∧ d.owner = t ∧ Q () := by
  simp [lsh, own_bind, own_read, own_write]
theorem own_rsh : Own t Q (rsh d a n) ↔ May t a ∧ d.owner = t ∧ Q () := by
  simp [rsh, own_bind, own_read, own_write]
theorem own_exp : Own t Q (exp d a b e) ↔ May t a ∧ May t b ∧ May t e ∧ d.owner = t ∧ Q () := by
  simp [exp, own_bind, own_read, own_write]
end

theorem May.own {t : Nat} {r : Ref} (h : r.owner = t) : May t r := Or.inr h
theorem may_new (t i : Nat) : May t ⟨t, i⟩ := Or.inr rfl

/-- Compute what a program may do. -/
macro "own" "[" xs:Lean.Parser.Tactic.simpLemma,* "]" : tactic =>
  `(tactic| simp only [bind_eq, pure_eq, own_bind, own_ret, own_newInt, own_read, own_newPair, own_write, own_set, own_add,
      own_sub, own_mul, own_mod, own_lsh, own_rsh, own_exp, may_new, true_and, and_true, implies_true, and_self,
      forall_const, $xs,*])

theorem lucasStep_own {t : Nat} {p P Q : Ref} (hp : May t p) (hP : May t P) (hQ : May t Q) {l : Locals}
    (h1 : l.uh.owner = t) (h2 : l.vl.owner = t) (h3 : l.ql.owner = t) (h4 : l.qh.owner = t) (h5 : l.vh.owner = t)
    (h6 : l.tmp.owner = t) (b : Bool) : Own t (fun _ => True) (lucasStep p P Q l b) := by
  have k1 := May.own h1
  have k2 := May.own h2
  have k3 := May.own h3
  have k4 := May.own h4
  have k5 := May.own h5
  have k6 := May.own h6
  unfold lucasStep
  cases b
  · simp only [Bool.false_eq_true, if_false]
    own [hp, hP, hQ, h1, h2, h3, h4, h5, h6, k1, k2, k3, k4, k5, k6]
  · simp only [if_true]
    own [hp, hP, hQ, h1, h2, h3, h4, h5, h6, k1, k2, k3, k4, k5, k6]

theorem lucasLoop_own {t : Nat} {p P Q k : Ref} (hp : May t p) (hP : May t P) (hQ : May t Q) (hk : May t k) {l : Locals}
    (h1 : l.uh.owner = t) (h2 : l.vl.owner = t) (h3 : l.ql.owner = t) (h4 : l.qh.owner = t) (h5 : l.vh.owner = t)
    (h6 : l.tmp.owner = t) (s : Nat) : ∀ n, Own t (fun _ => True) (lucasLoop p P Q k l s n)
  | 0 => trivial
  | n + 1 => by
    rw [lucasLoop]
    own [hk]
    exact fun v => own_mono (lucasStep_own hp hP hQ h1 h2 h3 h4 h5 h6 _) fun _ _ =>
      lucasLoop_own hp hP hQ hk h1 h2 h3 h4 h5 h6 s n

theorem lucasTail_own {t : Nat} {p : Ref} (hp : May t p) {l : Locals}
    (h1 : l.uh.owner = t) (h2 : l.vl.owner = t) (h3 : l.ql.owner = t) (h6 : l.tmp.owner = t) : ∀ n,
    Own t (fun _ => True) (lucasTail p l n)
  | 0 => trivial
  | n + 1 => by
    have k1 := May.own h1
    have k2 := May.own h2
    have k3 := May.own h3
    have k6 := May.own h6
    rw [lucasTail]
    own [hp, h1, h2, h3, h6, k1, k2, k3, k6]
    exact lucasTail_own hp h1 h2 h3 h6 n

theorem lucasMid_own {t : Nat} {p P Q : Ref} (hp : May t p) (hP : May t P) (hQ : May t Q) {l : Locals}
    (h1 : l.uh.owner = t) (h2 : l.vl.owner = t) (h3 : l.ql.owner = t) (h4 : l.qh.owner = t) (h5 : l.vh.owner = t)
    (h6 : l.tmp.owner = t) : Own t (fun _ => True) (lucasMid p P Q l) := by
  have k1 := May.own h1
  have k2 := May.own h2
  have k3 := May.own h3
  have k4 := May.own h4
  have k5 := May.own h5
  have k6 := May.own h6
  unfold lucasMid
  own [hp, hP, hQ, h1, h2, h3, h4, h5, h6, k1, k2, k3, k4, k5, k6]

theorem fastLucas_own {t : Nat} {p P Q k : Ref} (hp : May t p) (hP : May t P) (hQ : May t Q) (hk : May t k) :
    Own t (fun r => r.1.owner = t ∧ r.2.owner = t) (fastLucasSequence p P Q k) := by
  unfold fastLucasSequence
  own [hp, hP, hQ, hk]
  intro _ _ _ _ _ _ _
  refine own_mono (lucasLoop_own hp hP hQ hk rfl rfl rfl rfl rfl rfl _ _) fun _ _ => ?_
  refine own_mono (lucasMid_own hp hP hQ rfl rfl rfl rfl rfl rfl) fun _ _ => ?_
  exact own_mono (lucasTail_own hp rfl rfl rfl rfl _) fun _ _ => trivial

theorem sqrt3mod4_own {t : Nat} {y P : Ref} (hy : May t y) (hP : May t P) :
    Own t (fun r => ∀ q, r = some q → q.owner = t) (sqrt3mod4 y P) := by
  unfold sqrt3mod4
  own [hy, hP]
  intro _ _ _ q hq
  split at hq
  · cases hq; rfl
  · cases hq

theorem tryDraw_own {t : Nat} {P f l q : Ref} (hP : May t P) (hf : May t f) (hl : May t l) (hq : May t q) (lp : Nat) :
    Own t (fun r => ∀ q, r = some q → q.owner = t) (tryDraw P f l q lp) := by
  unfold tryDraw
  own [hP]
  intro _ _ _ _
  split
  · own [hP, hf, hl, hq]
    intro _ _ q hq
    split at hq
    · cases hq; rfl
    · cases hq
  · own [hP]
    intro q hq
    cases hq

theorem tryRoot_own {t : Nat} {P lP lQ f q k : Ref} (hP : May t P) (hlP : May t lP) (hlQ : May t lQ) (hf : May t f)
    (hq : May t q) (hk : May t k) :
    Own t (fun r => ∀ q, r = some (some q) → q.owner = t) (tryRoot P lP lQ f q k) := by
  unfold tryRoot
  own []
  refine own_mono (fastLucas_own hP hlP hlQ hk) fun uv h => ?_
  have k1 := May.own h.1
  have k2 := May.own h.2
  own [hP, hf, k2]
  intro _ _
  split
  · own [k2]
    intro v
    split
    · own [k2, h.2, hP]
      intro q hq
      cases hq
      exact h.2
    · own [k2, h.2, hP]
      intro q hq
      cases hq
      exact h.2
  · own [k1, hq]
    intro _ _ _ q hq
    split at hq <;> cases hq

theorem lucasSearch_own {t : Nat} {P lQ f l q k : Ref} (hP : May t P) (hlQ : May t lQ) (hf : May t f) (hl : May t l)
    (hq : May t q) (hk : May t k) : ∀ draws,
    Own t (fun r => ∀ q, r = some (some q) → q.owner = t) (lucasSearch P lQ f l q k draws)
  | [] => by
    rw [lucasSearch]
    intro q hq
    cases hq
  | lp :: rest => by
    rw [lucasSearch]
    own []
    refine own_mono (tryDraw_own hP hf hl hq lp) fun r hr => ?_
    cases r with
    | none => exact lucasSearch_own hP hlQ hf hl hq hk rest
    | some r =>
      dsimp only
      own []
      refine own_mono (tryRoot_own hP (May.own (hr r rfl)) hlQ hf hq hk) fun r2 hr2 => ?_
      cases r2 with
      | none => exact lucasSearch_own hP hlQ hf hl hq hk rest
      | some r2 => exact hr2

theorem curveSqrt_own {t : Nat} {y P : Ref} (hy : May t y) (hP : May t P) (draws : List Nat) :
    Own t (fun r => ∀ q, r = some (some q) → q.owner = t) (curveSqrt y P draws) := by
  unfold curveSqrt
  own [hP]
  intro p
  split
  · own []
    exact own_mono (sqrt3mod4_own hy hP) fun r hr q hq => hr q (by injection hq)
  · unfold sqrtLucas
    own [hy, hP]
    intro _ _ _ _
    split
    · own []
      intro q hq
      cases hq
    · own [hy, hP]
      intro _ _ _
      exact lucasSearch_own hP (may_new t _) (may_new t _) (may_new t _) (may_new t _) (may_new t _) draws

/-- The goroutine may read the objects of the curve. -/
structure CurveObj.May (t : Nat) (o : CurveObj) : Prop where
  P : Big.May t o.P
  N : Big.May t o.N
  B : Big.May t o.B
  Gx : Big.May t o.Gx
  Gy : Big.May t o.Gy

/-- The goroutine may read the objects of the key. -/
structure PubObj.May (t : Nat) (o : PubObj) : Prop where
  curve : o.curve.May t
  X : Big.May t o.X
  Y : Big.May t o.Y

theorem decode_own {t : Nat} {o : CurveObj} (h : o.May t) (k1name : String) (data : Bytes) (draws : List Nat) :
    Own t (fun r => ∀ q, r = some (.ok q) → q.X.owner = t ∧ q.Y.owner = t) (decodePublicKey k1name data (some o) draws) := by
  unfold decodePublicKey
  dsimp only
  split
  · own []
    intro q hq
    cases hq
  · own []
    intro i
    split
    · split
      · own []
        intro q hq
        cases hq
      · own []
        intro i q hq
        cases hq
        exact ⟨rfl, rfl⟩
    · split
      · unfold deCompress ySquareOf
        own [h.P]
        intro _ _
        split
        all_goals
          own [h.P, h.B]
          refine own_mono (curveSqrt_own (may_new t _) h.P draws) fun r hr => ?_
          rcases r with _ | _ | r
          · own []
            intro q hq
            cases hq
          · own []
            intro q hq
            cases hq
          · have hk := May.own (hr r rfl)
            dsimp only
            own []
            unfold chooseY
            own [hk]
            intro _ _
            split
            all_goals
              own [hk, h.P]
              intro q hq
              cases hq
              exact ⟨rfl, rfl⟩
      · own []
        intro q hq
        cases hq

theorem getZ_own {t : Nat} {pub : PubObj} (h : pub.May t) (H : Bytes → Bytes) (msg id : Bytes) :
    Own t (fun _ => True) (getZ H msg pub id) := by
  unfold getZ
  split
  · trivial
  · own [h.curve.B, h.curve.Gx, h.curve.Gy, h.X, h.Y]

theorem signTry_own {t : Nat} {o : CurveObj} {one e : Ref} (h : o.May t) (h1 : May t one) (he : May t e) (E : SM2.Ext)
    (pk b : Bytes) : Own t (fun _ => True) (signTry E o one e pk b) := by
  unfold signTry randFieldElement
  own [h.N, h1, he]
  intros
  split
  · unfold invOf fermatInverse
    own [h1]
    intros
    split
    · own [h.N]
    · own [h.N]
  · trivial

theorem signLoop_own {t : Nat} {o : CurveObj} {one e : Ref} (h : o.May t) (h1 : May t one) (he : May t e) (E : SM2.Ext)
    (pk : Bytes) : ∀ bs, Own t (fun _ => True) (signLoop E o one e pk bs)
  | [] => trivial
  | b :: bs => by
    rw [signLoop]
    own []
    refine own_mono (signTry_own h h1 he E pk b) fun r _ => ?_
    cases r with
    | none => exact signLoop_own h h1 he E pk bs
    | some r => trivial

theorem sign_own {t : Nat} {priv : PrivObj} {one : Ref} (h : priv.pub.May t) (hD : May t priv.D) (h1 : May t one)
    (E : SM2.Ext) (H : Bytes → Bytes) (fuel : Nat) (rand id msg : Bytes) :
    Own t (fun _ => True) (sign E H one fuel rand priv id msg) := by
  unfold sign
  own []
  refine own_mono (getZ_own h H msg id) fun r _ => ?_
  cases r with
  | err => trivial
  | panic => trivial
  | ok mz =>
    dsimp only
    split
    · trivial
    · own [hD]
      intros
      exact signLoop_own h.curve h1 (may_new t _) E _ _

theorem combine_own {t : Nat} {pub : PubObj} {s u : Ref} (h : pub.May t) (hs : May t s) (hu : May t u) (E : SM2.Ext) :
    Own t (fun r => r.1.owner = t ∧ r.2.owner = t) (combine E pub s u) := by
  unfold combine
  split
  · own [h.X, h.Y, hs, hu]
  · own [h.X, h.Y, hs, hu]

theorem verify_own {t : Nat} {pub : PubObj} {r s : Ref} (h : pub.May t) (hr : May t r) (hs : May t s) (E : SM2.Ext)
    (H : Bytes → Bytes) (id msg : Bytes) : Own t (fun _ => True) (verify E H pub id msg r s) := by
  unfold verify
  own [h.curve.N]
  intro _
  split
  · trivial
  · own [hr, hs]
    intros
    split
    · trivial
    · unfold verifyTail
      own [hr, hs, h.curve.N]
      intros
      split
      · trivial
      · own []
        refine own_mono (combine_own h hs (may_new t _) E) fun q hq => ?_
        have k1 := May.own hq.1
        have k2 := May.own hq.2
        own [k1, k2]
        intros
        split
        · trivial
        · own []
          refine own_mono (getZ_own h H msg id) fun z _ => ?_
          cases z with
          | err => trivial
          | panic => trivial
          | ok mz =>
            dsimp only
            own [k1, hq.1, hr, h.curve.N]

theorem encryptLoop_own {t : Nat} {pub : PubObj} {one : Ref} (h : pub.May t) (h1 : May t one) (E : SM2.Ext) (data : Bytes) :
    ∀ bs buf, Own t (fun _ => True) (encryptLoop E pub one data bs buf)
  | [], _ => trivial
  | b :: bs, buf => by
    rw [encryptLoop]
    unfold randFieldElement
    own [h.curve.N, h1]
    intros
    split
    · trivial
    · trivial
    · own [h.X, h.Y]
      intros
      split
      · trivial
      · own [h.X, h.Y]
        intros
        split
        · trivial
        · trivial
        · split
          · exact encryptLoop_own h h1 E data bs _
          · own []

theorem encrypt_own {t : Nat} {pub : PubObj} {one : Ref} (h : pub.May t) (h1 : May t one) (E : SM2.Ext) (fuel : Nat)
    (rand data : Bytes) : Own t (fun _ => True) (encrypt E one fuel rand pub data) := by
  unfold encrypt
  split
  · trivial
  · split
    · trivial
    · own [h.X]
      intros
      exact encryptLoop_own h h1 E data _ _

theorem decrypt_own {t : Nat} {priv : PrivObj} (hD : May t priv.D) (E : SM2.Ext) (data spare : Bytes) :
    Own t (fun _ => True) (decrypt E priv data spare) := by
  unfold decrypt
  split
  · trivial
  · split
    · trivial
    · own []
      intros
      split
      · trivial
      · split
        · trivial
        · unfold decryptTail
          own [hD]
          intros
          split
          · trivial
          · trivial
          · split
            · trivial
            · own []

theorem hashToInt_own {t : Nat} {o : CurveObj} {one : Ref} (h : o.May t) (h1 : May t one) (E : VRF.Ext)
    (a : Signature.HashAlg) (m : Bytes) : ∀ fuel i,
    Own t (fun r => ∀ q, r = some q → q.owner = t) (hashToIntFrom E a o one m fuel i)
  | 0, i => by
    rw [hashToIntFrom]
    intro q hq
    cases hq
  | fuel + 1, i => by
    rw [hashToIntFrom]
    own [h.N, h1]
    intros
    split
    · own [h1]
      intro q hq
      cases hq
      rfl
    · exact hashToInt_own h h1 E a m fuel (i + 1)

theorem marshal_own {t : Nat} {q : Ref × Ref} (o : CurveObj) (h : May t q.1) (h' : May t q.2) :
    Own t (fun _ => True) (marshal o q) := by
  unfold marshal
  own [h, h']

theorem marshalAll_own {t : Nat} (o : CurveObj) : ∀ qs : List (Ref × Ref), (∀ q ∈ qs, May t q.1 ∧ May t q.2) →
    Own t (fun _ => True) (marshalAll o qs)
  | [], _ => trivial
  | q :: qs, h => by
    rw [marshalAll]
    own []
    refine own_mono (marshal_own o (h q (by simp)).1 (h q (by simp)).2) fun _ _ => ?_
    exact own_mono (marshalAll_own o qs fun q hq => h q (by simp [hq])) fun _ _ => trivial

theorem mult_own {t : Nat} {q : Ref × Ref} (E : VRF.Ext) (o : CurveObj) (h : May t q.1) (h' : May t q.2) (k : Nat) :
    Own t (fun r => r.1.owner = t ∧ r.2.owner = t) (mult E o q k) := by
  unfold mult
  own [h, h']

theorem addPoints_own {t : Nat} {p q : Ref × Ref} (E : VRF.Ext) (o : CurveObj) (h : May t p.1) (h' : May t p.2)
    (g : May t q.1) (g' : May t q.2) : Own t (fun r => r.1.owner = t ∧ r.2.owner = t) (addPoints E o p q) := by
  unfold addPoints
  own [h, h', g, g']

theorem challengeInput_own {t : Nat} {pub : PubObj} (h : pub.May t) {H A B : Ref × Ref} (hH : May t H.1 ∧ May t H.2)
    (hA : May t A.1 ∧ May t A.2) (hB : May t B.1 ∧ May t B.2) (vrf : Bytes) :
    Own t (fun _ => True) (challengeInput pub H vrf A B) := by
  unfold challengeInput
  own []
  refine own_mono (marshalAll_own pub.curve _ fun q hq => ?_) fun _ _ =>
    own_mono (marshalAll_own pub.curve _ fun q hq => ?_) fun _ _ => trivial
  · simp only [List.mem_cons, List.not_mem_nil, or_false] at hq
    rcases hq with rfl | rfl | rfl
    · exact ⟨h.curve.Gx, h.curve.Gy⟩
    · exact hH
    · exact ⟨h.X, h.Y⟩
  · simp only [List.mem_cons, List.not_mem_nil, or_false] at hq
    rcases hq with rfl | rfl
    · exact hA
    · exact hB

theorem hashToCurve_own {t : Nat} {o : CurveObj} (h : o.May t) (E : VRF.Ext) (a : Signature.HashAlg) (m : Bytes)
    (draws : Nat → List Nat) : ∀ n i,
    Own t (fun r => ∀ q, r = some (some q) → q.1.owner = t ∧ q.2.owner = t) (hashToCurveFrom E a o m draws n i)
  | 0, i => by
    rw [hashToCurveFrom]
    intro q hq
    cases hq
  | n + 1, i => by
    rw [hashToCurveFrom]
    own []
    refine own_mono (decode_own h E.k1name _ (draws i)) fun r hr => ?_
    rcases r with _ | r | r | r
    · intro q hq
      cases hq
    · intro q hq
      cases hq
      exact hr r rfl
    · exact hashToCurve_own h E a m draws n (i + 1)
    · exact hashToCurve_own h E a m draws n (i + 1)

theorem evaluate_own {t : Nat} {priv : PrivObj} {one : Ref} (h : priv.pub.May t) (hD : May t priv.D) (h1 : May t one)
    (E : VRF.Ext) (a : Signature.HashAlg) (msg : Bytes) (nonce : Res Bytes) (draws : Nat → List Nat) (fuel : Nat) :
    Own t (fun _ => True) (evaluate E a priv one msg nonce draws fuel) := by
  unfold evaluate
  split
  · trivial
  · cases nonce with
    | err => trivial
    | panic => trivial
    | ok r =>
      dsimp only
      own []
      intro i
      refine own_mono (marshal_own _ h.X h.Y) fun z _ => ?_
      cases z with
      | err => trivial
      | panic => trivial
      | ok pkb =>
        dsimp only
        own []
        refine own_mono (hashToCurve_own h.curve E a _ draws _ _) fun z hz => ?_
        rcases z with _ | _ | H
        · trivial
        · trivial
        · have hH : May t H.1 ∧ May t H.2 := ⟨May.own (hz H rfl).1, May.own (hz H rfl).2⟩
          dsimp only
          unfold evalWith
          own [hD]
          intro d
          refine own_mono (mult_own E _ hH.1 hH.2 _) fun sH hsH => ?_
          refine own_mono (marshal_own _ (May.own hsH.1) (May.own hsH.2)) fun z _ => ?_
          cases z with
          | err => trivial
          | panic => trivial
          | ok vrf =>
            dsimp only
            own []
            intro i j
            refine own_mono (mult_own E _ hH.1 hH.2 _) fun rH hrH => ?_
            refine own_mono (challengeInput_own h hH ⟨may_new t _, may_new t _⟩ ⟨May.own hrH.1, May.own hrH.2⟩ vrf)
              fun z _ => ?_
            cases z with
            | err => trivial
            | panic => trivial
            | ok b =>
              dsimp only
              unfold evalTail
              own []
              refine own_mono (hashToInt_own h.curve h1 E a b fuel 0) fun z hz => ?_
              cases z with
              | none => trivial
              | some s =>
                have hs := May.own (hz s rfl)
                dsimp only
                own [hs, hD, h.curve.N]

theorem proofToHash_own {t : Nat} {pk : PubObj} {one : Ref} (h : pk.May t) (h1 : May t one)
    (E : VRF.Ext) (a : Signature.HashAlg) (msg proof : Bytes) (draws : Nat → List Nat) (fuel : Nat) :
    Own t (fun _ => True) (proofToHash E a pk one msg proof draws fuel) := by
  unfold proofToHash
  dsimp only
  split
  · trivial
  · split
    · trivial
    · split
      · trivial
      · own []
        intro i j
        refine own_mono (marshal_own _ h.X h.Y) fun z _ => ?_
        cases z with
        | err => trivial
        | panic => trivial
        | ok pkb =>
          dsimp only
          own []
          refine own_mono (hashToCurve_own h.curve E a _ draws _ _) fun z hz => ?_
          rcases z with _ | _ | H
          · trivial
          · trivial
          · have hH : May t H.1 ∧ May t H.2 := ⟨May.own (hz H rfl).1, May.own (hz H rfl).2⟩
            dsimp only
            unfold checkWith
            own []
            intro i j
            refine own_mono (mult_own E _ h.X h.Y _) fun ks hks => ?_
            refine own_mono (addPoints_own E _ (may_new t _) (may_new t _) (May.own hks.1) (May.own hks.2)) fun A hA => ?_
            refine own_mono (mult_own E _ hH.1 hH.2 _) fun tH htH => ?_
            refine own_mono (mult_own E _ (may_new t _) (may_new t _) _) fun sH hsH => ?_
            refine own_mono (addPoints_own E _ (May.own htH.1) (May.own htH.2) (May.own hsH.1) (May.own hsH.2)) fun B hB => ?_
            refine own_mono (challengeInput_own h hH ⟨May.own hA.1, May.own hA.2⟩ ⟨May.own hB.1, May.own hB.2⟩ _)
              fun z _ => ?_
            cases z with
            | err => trivial
            | panic => trivial
            | ok b =>
              dsimp only
              own []
              refine own_mono (hashToInt_own h.curve h1 E a b fuel 0) fun z hz => ?_
              cases z with
              | none => trivial
              | some s =>
                have hs := May.own (hz s rfl)
                dsimp only
                own [hs]

theorem p256GetScalar_own {t : Nat} {o : CurveObj} (h : o.May t) (s : Bytes) :
    Own t (fun _ => True) (p256GetScalar o s) := by
  unfold p256GetScalar
  own [h.N]
  intros
  split
  · own [h.N]
  · own [h.N]

theorem maybeReduceModP_own {t : Nat} {o : CurveObj} (h : o.May t) {a : Ref} (ha : May t a) :
    Own t (May t) (maybeReduceModP o a) := by
  unfold maybeReduceModP
  own [h.P, ha]
  intros
  split
  · exact ha
  · own [h.P, ha]

theorem fromXY_own {t : Nat} {o : CurveObj} (h : o.May t) {x y : Ref} (hx : May t x) (hy : May t y) :
    Own t (fun _ => True) (fromXY o x y) := by
  unfold fromXY
  own []
  refine own_mono (maybeReduceModP_own h hx) fun r hr => ?_
  own [hr]
  refine own_mono (maybeReduceModP_own h hy) fun r hr => ?_
  own [hr]

theorem scalarMult_own {t : Nat} {o : CurveObj} (h : o.May t) {x y : Ref} (hx : May t x) (hy : May t y) (s : Bytes) :
    Own t (fun _ => True) (scalarMult o x y s) := by
  unfold scalarMult
  own []
  refine own_mono (p256GetScalar_own h s) fun _ _ => ?_
  refine own_mono (fromXY_own h hx hy) fun _ _ => ?_
  own []

theorem scalarBaseMult_own {t : Nat} {o : CurveObj} (h : o.May t) (s : Bytes) :
    Own t (fun _ => True) (scalarBaseMult o s) := by
  unfold scalarBaseMult
  own []
  refine own_mono (p256GetScalar_own h s) fun _ _ => ?_
  own []

theorem combinedMult_own {t : Nat} {o : CurveObj} (h : o.May t) {x y : Ref} (hx : May t x) (hy : May t y) (b s : Bytes) :
    Own t (fun _ => True) (combinedMult o x y b s) := by
  unfold combinedMult
  own []
  refine own_mono (p256GetScalar_own h b) fun _ _ => ?_
  refine own_mono (p256GetScalar_own h s) fun _ _ => ?_
  refine own_mono (fromXY_own h hx hy) fun _ _ => ?_
  own []

theorem inverse_own {t : Nat} {o : CurveObj} (h : o.May t) {k : Ref} (hk : May t k) :
    Own t (fun _ => True) (inverse o k) := by
  unfold inverse
  own []
  have h1 : Own t (May t) (inverseAbs k) := by
    unfold inverseAbs
    own [hk]
    intros
    split
    · own []
    · exact hk
  refine own_mono h1 fun r hr => ?_
  have h2 : Own t (May t) (inverseReduce o r) := by
    unfold inverseReduce
    own [hr, h.N]
    intros
    split
    · own [hr, h.N]
    · exact hr
  refine own_mono h2 fun r hr => ?_
  own [hr]

/-! ## Interleaving -/

/-- Two memories agree on what goroutine `t` may read. -/
def Agree (t : Nat) (m m' : Mem) : Prop := ∀ r, May t r → m r = m' r

theorem Agree.put {t : Nat} {m m' : Mem} (h : Agree t m m') (r : Ref) (v : Int) : Agree t (m.put r v) (m'.put r v) := by
  intro a ha
  simp only [put_apply]
  split
  · rfl
  · exact h a ha

/-- Along its run from this memory the program touches only what goroutine `t` may touch. -/
def OwnAt {α : Type} (t : Nat) : Prog α → Mem → Nat → Prop
  | .ret _, _, _ => True
  | .new v k, m, c => OwnAt t (k ⟨t, c⟩) (m.put ⟨t, c⟩ v) (c + 1)
  | .get r k, m, c => May t r ∧ OwnAt t (k (m r)) m c
  | .put r v k, m, c => r.owner = t ∧ OwnAt t k (m.put r v) c

theorem Own.at {α : Type} {t : Nat} {Q : α → Prop} {p : Prog α} (hp : Own t Q p) : ∀ (m : Mem) (c : Nat), OwnAt t p m c := by
  induction p with
  | ret a => exact fun _ _ => trivial
  | new v k ih => exact fun m c => ih _ (hp _) _ _
  | get r k ih => exact fun m c => ⟨hp.1, ih _ (hp.2 _) _ _⟩
  | put r v k ih => exact fun m c => ⟨hp.1, ih hp.2 _ _⟩

theorem ownAt_bind {α β : Type} {t : Nat} {p : Prog β} {f : β → Prog α} : ∀ {m : Mem} {c : Nat}, OwnAt t p m c →
    OwnAt t (f (exec t p m c).1) (exec t p m c).2.1 (exec t p m c).2.2 → OwnAt t (p.bind f) m c := by
  induction p with
  | ret a => exact fun _ h => h
  | new v k ih => exact fun h h' => ih _ h h'
  | get r k ih => exact fun h h' => ⟨h.1, ih _ h.2 h'⟩
  | put r v k ih => exact fun h h' => ⟨h.1, ih h.2 h'⟩

theorem OwnAt.agree {α : Type} {t : Nat} {p : Prog α} : ∀ {m m' : Mem} (c : Nat), Agree t m m' → OwnAt t p m c →
    OwnAt t p m' c := by
  induction p with
  | ret a => exact fun _ _ _ => trivial
  | new v k ih => exact fun c h hp => ih _ (c + 1) (h.put _ v) hp
  | get r k ih =>
    intro m m' c h hp
    refine ⟨hp.1, ?_⟩
    rw [← h r hp.1]
    exact ih _ c h hp.2
  | put r v k ih => exact fun c h hp => ⟨hp.1, ih c (h.put r v) hp.2⟩

theorem OwnAt.exec_agree {α : Type} {t : Nat} {p : Prog α} : ∀ {m m' : Mem} (c : Nat), OwnAt t p m c →
    Agree t m m' → (exec t p m c).1 = (exec t p m' c).1 ∧ (exec t p m c).2.2 = (exec t p m' c).2.2 ∧
      Agree t (exec t p m c).2.1 (exec t p m' c).2.1 := by
  induction p with
  | ret a => exact fun c _ h => ⟨rfl, rfl, h⟩
  | new v k ih => exact fun c hp h => ih _ (c + 1) hp (h.put _ v)
  | get r k ih =>
    intro m m' c hp h
    rw [exec, exec, ← h r hp.1]
    exact ih _ c hp.2 h
  | put r v k ih => exact fun c hp h => ih c hp.2 (h.put r v)

theorem step_own {α : Type} {t : Nat} {p : Prog α} {m : Mem} {c : Nat} (hp : OwnAt t p m c) :
    OwnAt t (step t p m c).1 (step t p m c).2.1 (step t p m c).2.2 ∧
    exec t (step t p m c).1 (step t p m c).2.1 (step t p m c).2.2 = exec t p m c ∧
    ∀ r, r.owner ≠ t → (step t p m c).2.1 r = m r := by
  cases p with
  | ret a => exact ⟨hp, rfl, fun _ _ => rfl⟩
  | new v k =>
    refine ⟨hp, rfl, fun r hr => if_neg ?_⟩
    rintro rfl
    exact hr rfl
  | get r k => exact ⟨hp.2, rfl, fun _ _ => rfl⟩
  | put r v k =>
    refine ⟨hp.2, rfl, fun a ha => if_neg ?_⟩
    rintro rfl
    exact ha hp.1

/-- What holds in every state that goroutines with such programs reach. -/
structure Inv {n : Nat} {α : Fin n → Type} (s₀ s : Conf α) : Prop where
  own : ∀ i : Fin n, OwnAt (i + 1) (s.prog i) s.mem (s.count i)
  shared : ∀ r : Ref, r.owner = 0 → s.mem r = s₀.mem r
  ret : ∀ i : Fin n, (exec (i + 1) (s.prog i) s.mem (s.count i)).1 = (exec (i + 1) (s₀.prog i) s₀.mem (s₀.count i)).1
  cnt : ∀ i : Fin n, (exec (i + 1) (s.prog i) s.mem (s.count i)).2.2 = (exec (i + 1) (s₀.prog i) s₀.mem (s₀.count i)).2.2
  mem : ∀ i : Fin n, Agree (i + 1) (exec (i + 1) (s.prog i) s.mem (s.count i)).2.1
    (exec (i + 1) (s₀.prog i) s₀.mem (s₀.count i)).2.1

theorem Inv.step {n : Nat} {α : Fin n → Type} {s₀ s s' : Conf α} (h : Inv s₀ s) (hs : Conf.Step s s') : Inv s₀ s' := by
  obtain ⟨i, rfl⟩ := hs
  obtain ⟨h1, h2, h3⟩ := step_own (h.own i)
  have other : ∀ j : Fin n, j ≠ i → Agree (j + 1) s.mem (Big.step (i + 1) (s.prog i) s.mem (s.count i)).2.1 := fun j hj r hr =>
    (h3 r (by
      have : (j : Nat) ≠ i := fun e => hj (Fin.ext e)
      rcases hr with hr | hr <;> omega)).symm
  refine ⟨fun j => ?_, fun r hr => (h3 r (by omega)).trans (h.shared r hr), fun j => ?_, fun j => ?_, fun j => ?_⟩
  · by_cases e : j = i
    · subst e
      simpa using h1
    · simpa [Function.update_of_ne e] using (h.own j).agree (s.count j) (other j e)
  · by_cases e : j = i
    · subst e
      simp only [Function.update_self]
      rw [h2]
      exact h.ret j
    · simp only [Function.update_of_ne e]
      rw [← ((h.own j).exec_agree (s.count j) (other j e)).1]
      exact h.ret j
  · by_cases e : j = i
    · subst e
      simp only [Function.update_self]
      rw [h2]
      exact h.cnt j
    · simp only [Function.update_of_ne e]
      rw [← ((h.own j).exec_agree (s.count j) (other j e)).2.1]
      exact h.cnt j
  · by_cases e : j = i
    · subst e
      simp only [Function.update_self]
      rw [h2]
      exact h.mem j
    · simp only [Function.update_of_ne e]
      intro r hr
      rw [← ((h.own j).exec_agree (s.count j) (other j e)).2.2 r hr]
      exact h.mem j r hr

theorem inv_reach {n : Nat} {α : Fin n → Type} {s₀ s : Conf α} 
    (h0 : ∀ i : Fin n, OwnAt (i + 1) (s₀.prog i) s₀.mem (s₀.count i))
    (h : Relation.ReflTransGen Conf.Step s₀ s) : Inv s₀ s := by
  induction h with
  | refl => exact ⟨h0, fun _ _ => rfl, fun _ => rfl, fun _ => rfl, fun _ _ _ => rfl⟩
  | tail _ hs ih => exact ih.step hs

/-- When one goroutine is about to write a number, no other is about to read or write it. -/
theorem Inv.no_race {n : Nat} {α : Fin n → Type} {s₀ s : Conf α} (inv : Inv s₀ s) (i j : Fin n) (hij : i ≠ j) (r : Ref)
    (hw : (s.prog i).Writes (i + 1) (s.count i) r) :
    ¬ (s.prog j).Reads r ∧ ¬ (s.prog j).Writes (j + 1) (s.count j) r := by
  have writes : ∀ k : Fin n, (s.prog k).Writes (k + 1) (s.count k) r → r.owner = k + 1 := by
    intro k hk
    have ho := inv.own k
    cases hp : s.prog k with
    | ret a => rw [hp] at hk; exact hk.elim
    | new v f => rw [hp] at hk; rw [show r = ⟨k + 1, s.count k⟩ from hk]
    | get r' f => rw [hp] at hk; exact hk.elim
    | put r' v f =>
      rw [hp] at hk ho
      rw [← show r' = r from hk]
      exact ho.1
  have hne : (i : Nat) ≠ j := fun e => hij (Fin.ext e)
  have hi := writes i hw
  refine ⟨fun hr => ?_, fun hj => ?_⟩
  · have ho := inv.own j
    cases hp : s.prog j with
    | ret a => rw [hp] at hr; exact hr.elim
    | new v f => rw [hp] at hr; exact hr.elim
    | get r' f =>
      rw [hp] at hr ho
      have h1 := ho.1
      rw [show r' = r from hr] at h1
      rcases h1 with h1 | h1 <;> omega
    | put r' v f => rw [hp] at hr; exact hr.elim
  · have := writes j hj
    omega

/-- The state after a step of goroutine `i + 1`. -/
def Conf.next {n : Nat} {α : Fin n → Type} (s : Conf α) (i : Fin n) : Conf α where
  prog := Function.update s.prog i (Big.step (i + 1) (s.prog i) s.mem (s.count i)).1
  count := Function.update s.count i (Big.step (i + 1) (s.prog i) s.mem (s.count i)).2.2
  mem := (Big.step (i + 1) (s.prog i) s.mem (s.count i)).2.1

theorem Conf.next_prog {n : Nat} {α : Fin n → Type} (s : Conf α) (i : Fin n) :
    (s.next i).prog i = (Big.step (i + 1) (s.prog i) s.mem (s.count i)).1 := Function.update_self ..

/-- A goroutine that is left alone finishes. -/
theorem finish {n : Nat} {α : Fin n → Type} (i : Fin n) : ∀ (p : Prog (α i)) (s : Conf α), s.prog i = p →
    ∃ s' a, Relation.ReflTransGen Conf.Step s s' ∧ s'.prog i = .ret a := by
  intro p
  induction p with
  | ret a => exact fun s h => ⟨s, a, .refl, h⟩
  | new v k ih =>
    intro s h
    obtain ⟨s', a, h1, h2⟩ := ih ⟨i + 1, s.count i⟩ (s.next i) (by rw [Conf.next_prog, h]; rfl)
    exact ⟨s', a, .head ⟨i, rfl⟩ h1, h2⟩
  | get r k ih =>
    intro s h
    obtain ⟨s', a, h1, h2⟩ := ih (s.mem r) (s.next i) (by rw [Conf.next_prog, h]; rfl)
    exact ⟨s', a, .head ⟨i, rfl⟩ h1, h2⟩
  | put r v k ih =>
    intro s h
    obtain ⟨s', a, h1, h2⟩ := ih (s.next i) (by rw [Conf.next_prog, h]; rfl)
    exact ⟨s', a, .head ⟨i, rfl⟩ h1, h2⟩

/-! ## Making, encoding and comparing keys -/

theorem encode_own {t : Nat} {key : PubObj} (hX : May t key.X) (hY : May t key.Y) (b : Bool) :
    Own t (fun _ => True) (encodePublicKey key b) := by
  unfold encodePublicKey
  dsimp only
  own [hX]
  intro v
  split
  · trivial
  · own [hY]
    intro w
    split
    · trivial
    · split <;> trivial

theorem serializePub_own {t : Nat} {pub : PubObj} (h : pub.May t) (E : Keypair.Ext) (alg : Keypair.Alg) :
    Own t (fun _ => True) (serializePublicKey E alg pub) := by
  unfold serializePublicKey
  split
  · exact encode_own h.X h.Y _
  · split
    · own []
      exact own_mono (encode_own h.X h.Y _) fun _ _ => trivial
    · trivial
    · trivial

theorem serializePriv_own {t : Nat} {priv : PrivObj} (h : priv.pub.May t) (hD : May t priv.D) (E : Keypair.Ext)
    (alg : Keypair.Alg) : Own t (fun _ => True) (serializePrivateKey E alg priv) := by
  unfold serializePrivateKey
  split
  · own [hD]
    exact own_mono (encode_own h.X h.Y _) fun _ _ => trivial
  · trivial
  · trivial

theorem compare_own {t : Nat} {k0 k1 : PubObj} (h : k0.May t) (h' : k1.May t) (a0 a1 : Keypair.Alg) :
    Own t (fun _ => True) (comparePublicKey a0 a1 k0 k1) := by
  unfold comparePublicKey
  split
  · own [h.X, h'.X]
  · trivial

theorem construct_own {t : Nat} (E : Keypair.Ext) (data : Bytes) (o : CurveObj) :
    Own t (fun _ => True) (constructPrivateKey E data o) := by
  unfold constructPrivateKey
  own []

theorem generate_own {t : Nat} {o : CurveObj} (h : o.May t) (E : Keypair.Ext) (reads : List Bytes) :
    Own t (fun _ => True) (generateECKeyPair E o reads) := by
  unfold generateECKeyPair
  own [h.N]
  intro n
  split
  · trivial
  · own []

theorem serializeSig_own {t : Nat} {v : DsaObj} (hR : May t v.R) (hS : May t v.S) (scheme : Signature.Scheme)
    (id : Option Bytes) : Own t (fun _ => True) (serializeSig scheme id v) := by
  unfold serializeSig serializeDSA
  dsimp only
  split
  · split
    · trivial
    · own [hR, hS]
  · split
    · trivial
    · own [hR, hS]

theorem encode_exec {t c : Nat} {m : Mem} {key : PubObj} (hX : 0 ≤ m key.X) (hY : 0 ≤ m key.Y) (b : Bool) :
    exec t (encodePublicKey key b) m c = (EC.encodePublicKey (some (pubVal m key)) b, m, c) := by
  have eX : (m key.X).natAbs = (m key.X).toNat := by omega
  have eY : (m key.Y).natAbs = (m key.Y).toNat := by omega
  unfold encodePublicKey EC.encodePublicKey pubVal
  dsimp only
  simp only [bind_eq, pure_eq, exec_bind, read, exec, eX]
  by_cases hx : (bytesOfNat (m key.X).toNat).length > key.curve.c.byteSize + 1
  · simp only [hx, if_true, exec]
  · simp only [hx, if_false, exec, exec_bind, eY]
    cases b
    · simp only [Bool.false_eq_true, if_false]
      split <;> rfl
    · rfl

theorem serializePub_exec {t c : Nat} {m : Mem} {pub : PubObj} (hX : 0 ≤ m pub.X) (hY : 0 ≤ m pub.Y) (E : Keypair.Ext)
    (alg : Keypair.Alg) : exec t (serializePublicKey E alg pub) m c =
      (Keypair.serializePublicKey E (.ec alg (pubVal m pub)), m, c) := by
  have e := encode_exec (t := t) (c := c) hX hY true
  unfold serializePublicKey Keypair.serializePublicKey
  show exec t _ m c = (if alg = .ecdsa ∧ pub.curve.c.name = Curves.p256.name then _ else _, m, c)
  split
  · exact e
  · show exec t _ m c = (match Keypair.getCurveLabel E pub.curve.c with | .ok label => _ | .err m => _ | .panic m => _, m, c)
    cases Keypair.getCurveLabel E pub.curve.c with
    | ok label =>
      simp only [bind_eq, pure_eq, exec_bind, e, exec]
      cases alg <;> rfl
    | err => rfl
    | panic => rfl

theorem serializePriv_exec {t c : Nat} {m : Mem} {priv : PrivObj} (hX : 0 ≤ m priv.pub.X) (hY : 0 ≤ m priv.pub.Y)
    (hD : 0 ≤ m priv.D) (E : Keypair.Ext) (alg : Keypair.Alg) : exec t (serializePrivateKey E alg priv) m c =
      (Keypair.serializePrivateKey E (.ec alg (privVal m priv)), m, c) := by
  have e := encode_exec (t := t) (c := c) hX hY true
  have eD : (m priv.D).natAbs = (m priv.D).toNat := by omega
  unfold serializePrivateKey Keypair.serializePrivateKey
  show exec t _ m c = (match Keypair.getCurveLabel E priv.pub.curve.c with | .ok label => _ | .err m => _ | .panic m => _, m, c)
  cases Keypair.getCurveLabel E priv.pub.curve.c with
  | ok label =>
    simp only [bind_eq, pure_eq, exec_bind, read, e, exec, eD]
    cases alg <;> rfl
  | err => rfl
  | panic => rfl

theorem compare_exec {t c : Nat} {m : Mem} {k0 k1 : PubObj} (h0 : 0 ≤ m k0.X) (h1 : 0 ≤ m k1.X) (a0 a1 : Keypair.Alg) :
    exec t (comparePublicKey a0 a1 k0 k1) m c =
      (Keypair.comparePublicKey (.ec a0 (pubVal m k0)) (.ec a1 (pubVal m k1)), m, c) := by
  unfold comparePublicKey Keypair.comparePublicKey pubVal
  have e : ((m k0.X).toNat = (m k1.X).toNat) ↔ m k0.X = m k1.X := by omega
  simp only [e]
  split
  · rename_i h
    by_cases hx : m k0.X = m k1.X <;> simp [bind_eq, pure_eq, exec_bind, read, exec, h.1, h.2, hx]
  · rename_i h
    simp only [pure_eq, exec]
    by_cases ha : a0 = a1
    · have : ¬ k0.curve.c.name = k1.curve.c.name := fun hn => h ⟨ha, hn⟩
      simp [this]
    · simp [ha]

theorem serializeSig_exec {t c : Nat} {m : Mem} (scheme : Signature.Scheme) (id : Option Bytes) (v : DsaObj) :
    exec t (serializeSig scheme id v) m c = (Signature.serialize (some (sigVal m scheme id v)), m, c) := by
  unfold serializeSig serializeDSA Signature.serialize Signature.serializeValue sigVal
  cases id <;> dsimp only <;> split <;> simp only [bind_eq, pure_eq, exec_bind, read, exec] <;> rfl

theorem construct_exec {t c : Nat} {m : Mem} (E : Keypair.Ext) (data : Bytes) (o : CurveObj) :
    exec t (constructPrivateKey E data o) m c = (⟨⟨t, c⟩, o, ⟨t, c + 1⟩, ⟨t, c + 1 + 1⟩⟩,
      ((m.put ⟨t, c⟩ (natOfBytes data)).put ⟨t, c + 1⟩ (E.baseMult o.c (natOfBytes data)).1).put ⟨t, c + 1 + 1⟩
        (E.baseMult o.c (natOfBytes data)).2, c + 1 + 1 + 1) := rfl

theorem newKey_exec {t c : Nat} {m : Mem} (q : Nat × Nat) (D : Nat) (o : CurveObj) :
    exec t (do
      let q ← newPair q
      let d ← newInt D
      let pub : PubObj := ⟨o, q.1, q.2⟩
      return some ((⟨d, pub⟩ : PrivObj), pub)) m c = (some ((⟨⟨t, c + 1 + 1⟩, o, ⟨t, c⟩, ⟨t, c + 1⟩⟩ : PrivObj), (⟨o, ⟨t, c⟩, ⟨t, c + 1⟩⟩ : PubObj)),
      ((m.put ⟨t, c⟩ q.1).put ⟨t, c + 1⟩ q.2).put ⟨t, c + 1 + 1⟩ D, c + 1 + 1 + 1) := rfl

theorem genScalar_N (c : Curve) (n : Nat) (h : n = c.N) : { c with N := n } = c := by subst h; rfl

/-! ## The calls -/

theorem Before.may {t n : Nat} {r : Ref} (h : Before t n r) : May t r := h.imp_right And.left

theorem CurveObj.Given.may {t n : Nat} {m : Mem} {o : CurveObj} (h : o.Given t n m) : o.May t :=
  ⟨h.1.1.may, h.1.2.1.may, h.1.2.2.1.may, h.1.2.2.2.1.may, h.1.2.2.2.2.may⟩

theorem PubObj.Given.may {t n : Nat} {m : Mem} {o : PubObj} (h : o.Given t n m) : o.May t :=
  ⟨h.1.may, h.2.1.1.may, h.2.2.1.may⟩

theorem call_own {t n : Nat} {m : Mem} : ∀ (c : Call), c.Given t n m → Own t (fun _ => True) c.prog
  | .decode .., h => own_mono (decode_own (CurveObj.Given.may h) _ _ _) fun _ _ => trivial
  | .sign .., h => sign_own (PubObj.Given.may h.1.1) (Before.may h.1.2.1) (.inl h.2.1) _ _ _ _ _ _
  | .verify .., h => verify_own (PubObj.Given.may h.1) (Before.may h.2.1) (Before.may h.2.2) _ _ _ _
  | .encrypt .., h => encrypt_own (PubObj.Given.may h.1) (.inl h.2.1) _ _ _ _
  | .decrypt .., h => decrypt_own (Before.may h.2.1) _ _ _
  | .evaluate .., h => evaluate_own (PubObj.Given.may h.1.1) (Before.may h.1.2.1) (.inl h.2.1) _ _ _ _ _ _
  | .proofToHash .., h => proofToHash_own (PubObj.Given.may h.1) (.inl h.2.1) _ _ _ _ _ _
  | .mult .., h => scalarMult_own (CurveObj.Given.may h.1.1) (Before.may h.2.1.1) (Before.may h.2.2.1) _
  | .baseMult .., h => scalarBaseMult_own (CurveObj.Given.may h.1) _
  | .combined .., h => combinedMult_own (CurveObj.Given.may h.1.1) (Before.may h.2.1.1) (Before.may h.2.2.1) _ _
  | .inverse .., h => inverse_own (CurveObj.Given.may h.1.1) (Before.may h.2)
  | .encode .., h => encode_own (PubObj.Given.may h).X (PubObj.Given.may h).Y _
  | .serializePub .., h => serializePub_own (PubObj.Given.may h) _ _
  | .serializePriv .., h => serializePriv_own (PubObj.Given.may h.1) (Before.may h.2.1) _ _
  | .compare .., h => compare_own (PubObj.Given.may h.1) (PubObj.Given.may h.2) _ _
  | .construct .., _ => construct_own _ _ _
  | .generate .., h => generate_own (CurveObj.Given.may h) _ _
  | .serializeSig .., h => serializeSig_own (Before.may h.1) (Before.may h.2) _ _

theorem Before.old {t n : Nat} (ht : t ≠ 0) {r : Ref} (h : Before t n r) : Old t n r :=
  h.elim (fun h => .inl ⟨h, ht⟩) .inr

theorem old0 {t n : Nat} (ht : t ≠ 0) {r : Ref} (h : r.owner = 0) : Old t n r := .inl ⟨h, ht⟩

theorem CurveObj.Given.at {t n : Nat} (ht : t ≠ 0) {m : Mem} {o : CurveObj} (h : o.Given t n m) : o.At t n m :=
  ⟨h.1.1.old ht, h.1.2.1.old ht, h.1.2.2.1.old ht, h.1.2.2.2.1.old ht, h.1.2.2.2.2.old ht,
    h.2.1.1, h.2.1.2.1, h.2.1.2.2.1, h.2.1.2.2.2.1, h.2.1.2.2.2.2⟩

theorem PubObj.Given.at {t n : Nat} (ht : t ≠ 0) {m : Mem} {o : PubObj} (h : o.Given t n m) : o.At t n m (pubVal m o) :=
  ⟨h.1.at ht, rfl, h.2.1.1.old ht, h.2.2.1.old ht, (Int.toNat_of_nonneg h.2.1.2).symm,
    (Int.toNat_of_nonneg h.2.2.2).symm⟩

theorem PrivObj.Given.at {t n : Nat} (ht : t ≠ 0) {m : Mem} {o : PrivObj} (h : o.Given t n m) :
    o.At t n m (privVal m o) :=
  ⟨h.1.at ht, h.2.1.old ht, (Int.toNat_of_nonneg h.2.2).symm⟩

theorem Same.kept {t n : Nat} (ht : t ≠ 0) {m m' : Mem} (h : Same t n m m') : Kept t n m m' :=
  fun r hr => h r (hr.old ht)

theorem PGives.newPair {t c c' : Nat} {m : Mem} {q : Ref × Ref} {v : Nat × Nat} (h : PGives t c m c' (some q) (some v)) :
    NewPair t c c' m q v := ⟨h.1, h.2.1, h.2.2.1, h.2.2.2.1, h.2.2.2.2⟩

theorem NewPair.agree {t n n' : Nat} {m m' : Mem} {q : Ref × Ref} {v : Nat × Nat} (h : Agree t m m')
    (g : NewPair t n n' m' q v) : NewPair t n n' m q v :=
  ⟨g.1, g.2.1, g.2.2.1, (h _ (.inr g.1.1)).trans g.2.2.2.1, (h _ (.inr g.2.1.1)).trans g.2.2.2.2⟩

/-- The effect of a call that runs alone. -/
def Effect (t n : Nat) (m : Mem) (c : Call) (r : c.Ret) (m' : Mem) (n' : Nat) : Prop :=
  n ≤ n' ∧ c.Right t n n' m m' r ∧ Kept t n m m'

theorem Fresh.le {t c c' : Nat} {r : Ref} (h : Fresh t c r c') : c ≤ c' := h.2.1.trans h.2.2.le

/-- A call that changes nothing. -/
theorem effect_exec {t n : Nat} {m : Mem} {c : Call} {r : c.Ret} (h : exec t c.prog m n = (r, m, n))
    (hr : c.Right t n n m m r) : wp t c.prog (Effect t n m c) m n := by
  unfold wp
  rw [h]
  exact ⟨le_rfl, hr, fun _ _ => rfl⟩

theorem call_right {t n : Nat} (ht : t ≠ 0) {m : Mem} : ∀ (c : Call), c.Given t n m →
    wp t c.prog (Effect t n m c) m n
  | .decode k1name data o draws, h => by
    refine wp_mono (decode_wp (t := t) (c := n) (o := some o)
      (fun o' e => by cases e; exact ⟨CurveObj.Given.at ht h, h.2.2.1⟩) k1name data draws) fun r m' c' hg => ?_
    obtain ⟨hn, g, hk⟩ := hg
    refine ⟨hn, ?_, hk.kept ht⟩
    simp only [Option.map_some] at g
    unfold Call.Right
    dsimp only
    revert g
    generalize EC.decodePublicKey k1name data (some o.c) draws = w
    intro g
    rcases r with _ | r | r | r <;> rcases w with _ | w | w | w <;> try exact g.elim
    · exact ⟨rfl, fun q hq => by cases hq⟩
    · obtain ⟨o', ho, g⟩ := g
      cases ho
      refine ⟨?_, fun q hq => ?_⟩
      · have hx : (m' r.X).toNat = w.x := by rw [g.x]; rfl
        have hy : (m' r.Y).toNat = w.y := by rw [g.y]; rfl
        show some (Res.ok (pubVal m' r)) = _
        unfold pubVal
        rw [hx, hy, g.curve, g.same]
      · cases hq
        exact ⟨g.curve, ⟨g.X, by rw [g.x]; exact Int.natCast_nonneg _⟩, ⟨g.Y, by rw [g.y]; exact Int.natCast_nonneg _⟩,
          g.ne⟩
    · cases g
      exact ⟨rfl, fun q hq => by cases hq⟩
    · cases g
      exact ⟨rfl, fun q hq => by cases hq⟩
  | .sign E H one fuel rand priv id msg, h => by
    refine wp_mono (sign_wp (PrivObj.Given.at ht h.1) ⟨old0 ht h.2.1, h.2.2⟩ E H fuel rand id msg) fun r m' c' hg => ?_
    obtain ⟨hn, g, hk⟩ := hg
    refine ⟨hn, ?_, hk.kept ht⟩
    unfold Call.Right
    dsimp only
    revert g
    generalize SM2.sign E H fuel rand _ id msg = w
    intro g
    rcases r with _ | r | r | r <;> rcases w with _ | w | w | w <;> try exact g.elim
    · exact ⟨rfl, fun q hq => by cases hq⟩
    · obtain ⟨f1, f2, ne, v1, v2⟩ := g
      refine ⟨?_, fun q hq => ?_⟩
      · show some (Res.ok ((m' r.1).toNat, (m' r.2).toNat)) = _
        rw [v1, v2]
        rfl
      · cases hq
        exact ⟨⟨f1, by rw [v1]; exact Int.natCast_nonneg _⟩, ⟨f2, by rw [v2]; exact Int.natCast_nonneg _⟩, ne⟩
    · cases g
      exact ⟨rfl, fun q hq => by cases hq⟩
    · cases g
      exact ⟨rfl, fun q hq => by cases hq⟩
  | .verify E H pub id msg r s, h =>
    wp_mono (verify_wp (PubObj.Given.at ht h.1) (Before.old ht h.2.1) (Before.old ht h.2.2) E H id msg)
      fun _ _ _ g => ⟨g.1, g.2.1, g.2.2.kept ht⟩
  | .encrypt E one fuel rand pub data, h =>
    wp_mono (encrypt_wp (PubObj.Given.at ht h.1) ⟨old0 ht h.2.1, h.2.2⟩ E fuel rand data)
      fun _ _ _ g => ⟨g.1, g.2.1, g.2.2.kept ht⟩
  | .decrypt E priv data spare, h => wp_mono (decrypt_wp (PrivObj.Given.at ht h) E data spare)
      fun _ _ _ g => ⟨g.1, g.2.1, g.2.2.kept ht⟩
  | .evaluate E a priv one msg nonce draws fuel, h =>
    wp_mono (evaluate_wp (PrivObj.Given.at ht h.1) ⟨old0 ht h.2.1, h.2.2⟩ h.1.1.1.2.2.2 h.1.1.1.2.2.1 E a msg nonce draws
      fuel) fun _ _ _ g => ⟨g.1, g.2.1, g.2.2.kept ht⟩
  | .proofToHash E a pk one msg proof draws fuel, h =>
    wp_mono (proofToHash_wp (PubObj.Given.at ht h.1) ⟨old0 ht h.2.1, h.2.2⟩ h.1.1.2.2.2 h.1.1.2.2.1 E a msg proof draws
      fuel) fun _ _ _ g => ⟨g.1, g.2.1, g.2.2.kept ht⟩
  | .mult o x y scalar, h => wp_mono (scalarMult_wp (h.1.1.at ht) h.1.2 (v := ((m x).toNat, (m y).toNat))
      ⟨Before.old ht h.2.1.1, Before.old ht h.2.2.1, (Int.toNat_of_nonneg h.2.1.2).symm,
        (Int.toNat_of_nonneg h.2.2.2).symm⟩ scalar) fun _ _ _ g => ⟨g.1.1.le, g.1.newPair, g.2.kept ht⟩
  | .baseMult o scalar, h => wp_mono (scalarBaseMult_wp (h.1.at ht) h.2 scalar)
      fun _ _ _ g => ⟨g.1.1.le, g.1.newPair, g.2.kept ht⟩
  | .combined o x y b scalar, h => wp_mono (combinedMult_wp (h.1.1.at ht) h.1.2 (v := ((m x).toNat, (m y).toNat))
      ⟨Before.old ht h.2.1.1, Before.old ht h.2.2.1, (Int.toNat_of_nonneg h.2.1.2).symm,
        (Int.toNat_of_nonneg h.2.2.2).symm⟩ b scalar) fun _ _ _ g => ⟨g.1.1.le, g.1.newPair, g.2.kept ht⟩
  | .inverse o k, h => wp_mono (inverse_wp (h.1.1.at ht) h.1.2 (Before.old ht h.2))
      fun _ _ _ g => ⟨g.1.le, ⟨g.1, g.2.1⟩, g.2.2.kept ht⟩
  | .encode key b, h => effect_exec (c := .encode key b) (encode_exec h.2.1.2 h.2.2.2 b) rfl
  | .serializePub E alg pub, h =>
    effect_exec (c := .serializePub E alg pub) (serializePub_exec h.2.1.2 h.2.2.2 E alg) rfl
  | .serializePriv E alg priv, h =>
    effect_exec (c := .serializePriv E alg priv) (serializePriv_exec h.1.2.1.2 h.1.2.2.2 h.2.2 E alg) rfl
  | .compare a0 a1 k0 k1, h =>
    effect_exec (c := .compare a0 a1 k0 k1) (compare_exec h.1.2.1.2 h.2.2.1.2 a0 a1) rfl
  | .construct E data o, _ => by
    show wp t (constructPrivateKey E data o) _ m n
    unfold wp
    rw [construct_exec]
    refine ⟨show n ≤ n + 1 + 1 + 1 by omega, ?_, fun r hr => ?_⟩
    · unfold Call.Right
      simp [Mem.put, NewPriv, New, Made, privVal, pubVal, Keypair.constructPrivateKey]
      omega
    · have hr := hr.old ht
      simp only [put_apply, hr.ne0, hr.ne 1, hr.ne 2, if_false]
  | .generate E o alg reads, h => by
    have hn : (m o.N).toNat = o.c.N := by rw [h.2.1.2.1]; rfl
    show wp t (generateECKeyPair E o reads) (fun r m' n' => Effect t n m (.generate E o alg reads) r m' n') m n
    unfold generateECKeyPair
    rw [bind_eq, wp_bind, wp_read, genScalar_N _ _ hn]
    unfold Effect Call.Right Keypair.generateECKeyPair
    cases hg : Keypair.genScalar o.c reads with
    | none => exact ⟨le_rfl, ⟨(congrArg (Option.map _) hg).symm, fun q hq => by cases hq⟩, fun _ _ => rfl⟩
    | some D =>
      dsimp only
      unfold wp
      rw [newKey_exec]
      refine ⟨show n ≤ n + 1 + 1 + 1 by omega, ⟨?_, fun q hq => ?_⟩, fun r hr => ?_⟩
      · rw [hg]
        simp only [Option.map_some, privVal, pubVal, Mem.put]
        simp [show ¬ n = n + 1 + 1 by omega]
      · cases hq
        simp [NewPriv, New, Made, Mem.put]
        omega
      · have hr := hr.old ht
        simp only [put_apply, hr.ne0, hr.ne 1, hr.ne 2, if_false]
  | .serializeSig scheme id v, _ => effect_exec (c := .serializeSig scheme id v) (serializeSig_exec scheme id v) rfl

theorem NewPriv.agree {t n n' : Nat} {m m' : Mem} {o : CurveObj} {q : PrivObj} (h : Agree t m m')
    (g : NewPriv t n n' m' o q) : NewPriv t n n' m o q ∧ privVal m q = privVal m' q := by
  obtain ⟨g1, g2, g3, g4, g5⟩ := g
  have e2 := h q.D (.inr g2.1.1)
  have e3 := h q.pub.X (.inr g3.1.1)
  have e4 := h q.pub.Y (.inr g4.1.1)
  exact ⟨⟨g1, ⟨g2.1, by rw [e2]; exact g2.2⟩, ⟨g3.1, by rw [e3]; exact g3.2⟩, ⟨g4.1, by rw [e4]; exact g4.2⟩, g5⟩,
    by unfold privVal pubVal; rw [e2, e3, e4]⟩

/-- The statement of a result depends on the memory only through what the goroutine may read. -/
theorem right_agree {t n n' : Nat} {m₀ m m' : Mem} (h : Agree t m m') : ∀ (c : Call) (r : c.Ret),
    c.Right t n n' m₀ m' r → c.Right t n n' m₀ m r
  | .decode k1name data o draws, r, g => by
    unfold Call.Right at g ⊢
    rcases r with _ | r | r | r
    · exact ⟨g.1, fun q hq => by cases hq⟩
    · have g2 := g.2 r rfl
      refine ⟨?_, fun q hq => ?_⟩
      · rw [← g.1]
        show some (Res.ok (pubVal m r)) = some (Res.ok (pubVal m' r))
        unfold pubVal
        rw [h r.X (.inr g2.2.1.1.1), h r.Y (.inr g2.2.2.1.1.1)]
      · cases hq
        exact ⟨g2.1, ⟨g2.2.1.1, by rw [h r.X (.inr g2.2.1.1.1)]; exact g2.2.1.2⟩,
          ⟨g2.2.2.1.1, by rw [h r.Y (.inr g2.2.2.1.1.1)]; exact g2.2.2.1.2⟩, g2.2.2.2⟩
    · exact ⟨g.1, fun q hq => by cases hq⟩
    · exact ⟨g.1, fun q hq => by cases hq⟩
  | .sign E H one fuel rand priv id msg, r, g => by
    unfold Call.Right at g ⊢
    rcases r with _ | r | r | r
    · exact ⟨g.1, fun q hq => by cases hq⟩
    · have g2 := g.2 r rfl
      refine ⟨?_, fun q hq => ?_⟩
      · rw [← g.1]
        show some (Res.ok ((m r.1).toNat, (m r.2).toNat)) = some (Res.ok ((m' r.1).toNat, (m' r.2).toNat))
        rw [h r.1 (.inr g2.1.1.1), h r.2 (.inr g2.2.1.1.1)]
      · cases hq
        exact ⟨⟨g2.1.1, by rw [h r.1 (.inr g2.1.1.1)]; exact g2.1.2⟩,
          ⟨g2.2.1.1, by rw [h r.2 (.inr g2.2.1.1.1)]; exact g2.2.1.2⟩, g2.2.2⟩
    · exact ⟨g.1, fun q hq => by cases hq⟩
    · exact ⟨g.1, fun q hq => by cases hq⟩
  | .verify .., _, g => g
  | .encrypt .., _, g => g
  | .decrypt .., _, g => g
  | .evaluate .., _, g => g
  | .proofToHash .., _, g => g
  | .mult .., _, g => NewPair.agree h g
  | .baseMult .., _, g => NewPair.agree h g
  | .combined .., _, g => NewPair.agree h g
  | .inverse .., _, g => ⟨g.1, (h _ (.inr g.1.1)).trans g.2⟩
  | .encode .., _, g => g
  | .serializePub .., _, g => g
  | .serializePriv .., _, g => g
  | .compare .., _, g => g
  | .construct .., _, g => ⟨(NewPriv.agree h g.2).2.trans g.1, (NewPriv.agree h g.2).1⟩
  | .generate E o alg reads, r, g => by
    unfold Call.Right at g ⊢
    cases r with
    | none => exact ⟨g.1, fun q hq => by cases hq⟩
    | some r =>
      obtain ⟨g2, g3⟩ := g.2 r rfl
      have e := NewPriv.agree h g2
      have e' : pubVal m r.2 = pubVal m' r.2 := by
        rw [g3]; exact congrArg ECPriv.pub e.2
      refine ⟨?_, fun q hq => ?_⟩
      · rw [← g.1]
        simp only [Option.map_some, e.2, e']
      · cases hq
        exact ⟨e.1, g3⟩
  | .serializeSig .., _, g => g

/-! ## Histories -/

/-- What a goroutine does when it runs alone. -/
theorem client_run {α : Type} {t : Nat} (ht : t ≠ 0) (cl : Client α) : ∀ {m : Mem} {n : Nat}, cl.Proper t m n →
    OwnAt t cl.prog m n ∧ cl.Gives t m n (exec t cl.prog m n).1 (exec t cl.prog m n).2.1 := by
  induction cl with
  | done a => exact fun _ => ⟨trivial, rfl, rfl⟩
  | call c k ih =>
    intro m n h
    obtain ⟨hn, hr, hk⟩ := call_right ht c h.1
    obtain ⟨h1, h2⟩ := ih _ (h.2 _ _ _ hn hr hk)
    refine ⟨ownAt_bind ((call_own c h.1).at m n) h1, _, _, _, hn, hr, hk, ?_⟩
    rw [Client.prog, exec_bind]
    exact h2
  | look r k ih =>
    intro m n h
    obtain ⟨h1, h2⟩ := ih _ h.2
    exact ⟨⟨h.1.may, h1⟩, h2⟩
  | set r v k ih =>
    intro m n h
    obtain ⟨h1, h2⟩ := ih h.2
    exact ⟨⟨h.1.1, h1⟩, h2⟩

theorem Before.mono {t n n' : Nat} {r : Ref} (h : Before t n r) (hn : n ≤ n') : Before t n' r :=
  h.imp_right fun h => ⟨h.1, h.2.trans_le hn⟩

theorem Made.before {t n n' : Nat} {r : Ref} (h : Made t n n' r) : Before t n' r := .inr ⟨h.1, h.2.2⟩

theorem Given.mono {t n n' : Nat} {m m' : Mem} {r : Ref} (h : Given t n m r) (hn : n ≤ n') (hk : Kept t n m m') :
    Given t n' m' r := ⟨h.1.mono hn, by rw [hk r h.1]; exact h.2⟩

theorem CurveObj.Given.mono {t n n' : Nat} {m m' : Mem} {o : CurveObj} (h : o.Given t n m) (hn : n ≤ n')
    (hk : Kept t n m m') : o.Given t n' m' := by
  obtain ⟨⟨a, b, c, d, e⟩, ⟨f, g, i, j, k⟩, l⟩ := h
  exact ⟨⟨a.mono hn, b.mono hn, c.mono hn, d.mono hn, e.mono hn⟩, ⟨(hk _ a).trans f, (hk _ b).trans g, (hk _ c).trans i,
    (hk _ d).trans j, (hk _ e).trans k⟩, l⟩

theorem PubObj.Given.mono {t n n' : Nat} {m m' : Mem} {o : PubObj} (h : o.Given t n m) (hn : n ≤ n')
    (hk : Kept t n m m') : o.Given t n' m' := ⟨h.1.mono hn hk, h.2.1.mono hn hk, h.2.2.mono hn hk⟩

theorem PrivObj.Given.mono {t n n' : Nat} {m m' : Mem} {o : PrivObj} (h : o.Given t n m) (hn : n ≤ n')
    (hk : Kept t n m m') : o.Given t n' m' := ⟨h.1.mono hn hk, h.2.mono hn hk⟩

/-- A key that a call has made can be passed to later calls. -/
theorem NewPriv.given {t n n' : Nat} {m m' : Mem} {o : CurveObj} {q : PrivObj} (h : NewPriv t n n' m' o q)
    (ho : o.Given t n m) (hn : n ≤ n') (hk : Kept t n m m') : q.Given t n' m' :=
  ⟨⟨by rw [h.1]; exact ho.mono hn hk, ⟨h.2.2.1.1.before, h.2.2.1.2⟩, ⟨h.2.2.2.1.1.before, h.2.2.2.1.2⟩⟩,
    ⟨h.2.1.1.before, h.2.1.2⟩⟩

end Verif.Big
