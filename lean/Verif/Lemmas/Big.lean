import Verif.Model.BigProg
import Verif.Lemmas.EC
import Verif.Lemmas.Primality
import Mathlib.Logic.Relation
/-!
# Lemmas on programs that compute with number objects
-/
set_option linter.unusedSimpArgs false
set_option linter.unusedVariables false

namespace Verif.Big

/-! ## Running a program -/

@[simp] theorem bind_eq {α β : Type} (p : Prog α) (f : α → Prog β) : p >>= f = p.bind f := rfl
@[simp] theorem pure_eq {α : Type} (a : α) : (pure a : Prog α) = .ret a := rfl

/-- What holds after a program has run alone. -/
def wp {α : Type} (t : Nat) (p : Prog α) (Q : α → Mem → Nat → Prop) (m : Mem) (c : Nat) : Prop :=
  Q (exec t p m c).1 (exec t p m c).2.1 (exec t p m c).2.2

section
variable {α β : Type} {t : Nat} {Q : α → Mem → Nat → Prop} {m : Mem} {c : Nat}

theorem exec_bind (t : Nat) (p : Prog β) (f : β → Prog α) : ∀ (m : Mem) (c : Nat), exec t (p.bind f) m c =
    exec t (f (exec t p m c).1) (exec t p m c).2.1 (exec t p m c).2.2 := by
  induction p with
  | ret a => intro m c; rfl
  | new v k ih => intro m c; exact ih _ _ _
  | get r k ih => intro m c; exact ih _ _ _
  | put r v k ih => intro m c; exact ih _ _

@[simp] theorem wp_ret (a : α) : wp t (.ret a) Q m c ↔ Q a m c := Iff.rfl

theorem wp_bind (p : Prog β) (f : β → Prog α) :
    wp t (p.bind f) Q m c ↔ wp t p (fun b m c => wp t (f b) Q m c) m c := by
  unfold wp
  rw [exec_bind]

@[simp] theorem wp_newInt (v : Int) {Q : Ref → Mem → Nat → Prop} :
    wp t (newInt v) Q m c ↔ Q ⟨t, c⟩ (m.put ⟨t, c⟩ v) (c + 1) := Iff.rfl
@[simp] theorem wp_read (r : Ref) {Q : Int → Mem → Nat → Prop} : wp t (read r) Q m c ↔ Q (m r) m c := Iff.rfl

section
variable {Q : Unit → Mem → Nat → Prop} (d a b e : Ref) (n : Nat)
@[simp] theorem wp_write (v : Int) : wp t (write d v) Q m c ↔ Q () (m.put d v) c := Iff.rfl
@[simp] theorem wp_set : wp t (set d a) Q m c ↔ Q () (m.put d (m a)) c := Iff.rfl
@[simp] theorem wp_add : wp t (add d a b) Q m c ↔ Q () (m.put d (m a + m b)) c := Iff.rfl
@[simp] theorem wp_sub : wp t (sub d a b) Q m c ↔ Q () (m.put d (m a - m b)) c := Iff.rfl
@[simp] theorem wp_mul : wp t (mul d a b) Q m c ↔ Q () (m.put d (m a * m b)) c := Iff.rfl
@[simp] theorem wp_mod : wp t (mod d a b) Q m c ↔ Q () (m.put d (m a % m b)) c := Iff.rfl
@[simp] theorem wp_lsh : wp t (lsh d a n) Q m c ↔ Q () (m.put d (m a * 2 ^ n)) c := Iff.rfl
@[simp] theorem wp_rsh : wp t (rsh d a n) Q m c ↔ Q () (m.put d (m a / 2 ^ n)) c := Iff.rfl
@[simp] theorem wp_exp : wp t (exp d a b e) Q m c ↔ Q () (m.put d (EC.expMod (m a) (m b).toNat (m e))) c := Iff.rfl
end

theorem wp_mono {p : Prog α} {Q' : α → Mem → Nat → Prop} (h : wp t p Q m c) (hQ : ∀ a m c, Q a m c → Q' a m c) :
    wp t p Q' m c := hQ _ _ _ h

@[simp] theorem put_same (m : Mem) (r : Ref) (v : Int) : m.put r v r = v := if_pos rfl
theorem put_apply (m : Mem) (r : Ref) (v : Int) (a : Ref) : m.put r v a = if a = r then v else m a := rfl
end

/-! ## Objects that were there before -/

/-- An object that the goroutine `t` has not allocated after its first `c` objects. -/
def Old (t c : Nat) (r : Ref) : Prop := r.owner = 0 ∧ t ≠ 0 ∨ r.owner = t ∧ r.idx < c

theorem Old.ne {t c : Nat} {r : Ref} (h : Old t c r) (i : Nat) : r ≠ ⟨t, c + i⟩ := by
  rintro rfl
  rcases h with ⟨h, h'⟩ | ⟨-, h⟩
  · exact h' h
  · simp at h

theorem Old.ne0 {t c : Nat} {r : Ref} (h : Old t c r) : r ≠ ⟨t, c⟩ := h.ne 0

theorem Old.mono {t c c' : Nat} {r : Ref} (h : Old t c r) (hc : c ≤ c') : Old t c' r := by
  rcases h with h | ⟨h, h'⟩
  · exact Or.inl h
  · exact Or.inr ⟨h, by omega⟩

theorem old_new {t c i : Nat} (h : i < c) : Old t c ⟨t, i⟩ := Or.inr ⟨rfl, h⟩

/-- The objects that were there before have kept their values. -/
def Same (t c : Nat) (m m' : Mem) : Prop := ∀ r, Old t c r → m' r = m r

theorem Same.refl (t c : Nat) (m : Mem) : Same t c m m := fun _ _ => rfl

theorem Same.trans {t c c' : Nat} {m m' m'' : Mem} (h : Same t c m m') (h' : Same t c' m' m'') (hc : c ≤ c') :
    Same t c m m'' := fun r hr => (h' r (hr.mono hc)).trans (h r hr)

/-! ## The Lucas sequence -/

/-- The objects allocated in lines 51 to 56. -/
def locs (t c : Nat) : Locals := ⟨⟨t, c⟩, ⟨t, c + 1⟩, ⟨t, c + 2⟩, ⟨t, c + 3⟩, ⟨t, c + 4⟩, ⟨t, c + 5⟩⟩

/-- They have the values of the numbers in the model. -/
def LHolds (t c : Nat) (m : Mem) (st : EC.Lucas) : Prop :=
  m ⟨t, c⟩ = st.uh ∧ m ⟨t, c + 1⟩ = st.vl ∧ m ⟨t, c + 2⟩ = st.ql ∧ m ⟨t, c + 3⟩ = st.qh ∧ m ⟨t, c + 4⟩ = st.vh

theorem lucasStep_wp {t c c0 : Nat} {p P Q : Ref} (hp : Old t c p) (hP : Old t c P) (hQ : Old t c Q) (b : Bool)
    (m : Mem) (st : EC.Lucas) (h : LHolds t c m st) :
    wp t (lucasStep p P Q (locs t c) b) (fun _ m' c' => c' = c0 ∧
      LHolds t c m' (EC.lucasStep (m p) (m P) (m Q) st b) ∧ Same t c m m') m c0 := by
  obtain ⟨h1, h2, h3, h4, h5⟩ := h
  have e := fun r (hr : Old t c r) => And.intro hr.ne0 (And.intro (hr.ne 1) (And.intro (hr.ne 2)
    (And.intro (hr.ne 3) (And.intro (hr.ne 4) (hr.ne 5)))))
  obtain ⟨p0, p1, p2, p3, p4, p5⟩ := e p hp
  obtain ⟨q0, q1, q2, q3, q4, q5⟩ := e P hP
  obtain ⟨r0, r1, r2, r3, r4, r5⟩ := e Q hQ
  cases b <;>
  · simp only [lucasStep, locs, bind_eq, wp_bind, wp_mul, wp_mod, wp_sub, wp_lsh, wp_set, if_true, if_false,
      Bool.false_eq_true, put_apply, Ref.mk.injEq]
    simp [h1, h2, h3, h4, h5, p0, p1, p2, p3, p4, p5, q0, q1, q2, q3, q4, q5, r0, r1, r2, r3, r4, r5]
    refine ⟨?_, fun r hr => ?_⟩
    · simp [LHolds, EC.lucasStep, put_apply]
    · obtain ⟨a0, a1, a2, a3, a4, a5⟩ := e r hr
      simp [put_apply, a0, a1, a2, a3, a4, a5]

theorem lucasMid_wp {t c c0 : Nat} {p P Q : Ref} (hp : Old t c p) (hP : Old t c P) (hQ : Old t c Q)
    (m : Mem) (st : EC.Lucas) (h : LHolds t c m st) :
    wp t (lucasMid p P Q (locs t c)) (fun _ m' c' => c' = c0 ∧
      LHolds t c m' (
        let ql := (st.ql * st.qh) % m p
        let qh := (ql * m Q) % m p
        { uh := (st.uh * st.vl - ql) % m p, vl := (st.vh * st.vl - m P * ql) % m p, ql := (ql * qh) % m p, qh := qh,
          vh := st.vh }) ∧ Same t c m m') m c0 := by
  obtain ⟨h1, h2, h3, h4, h5⟩ := h
  have e := fun r (hr : Old t c r) => And.intro hr.ne0 (And.intro (hr.ne 1) (And.intro (hr.ne 2)
    (And.intro (hr.ne 3) (And.intro (hr.ne 4) (hr.ne 5)))))
  obtain ⟨p0, p1, p2, p3, p4, p5⟩ := e p hp
  obtain ⟨q0, q1, q2, q3, q4, q5⟩ := e P hP
  obtain ⟨r0, r1, r2, r3, r4, r5⟩ := e Q hQ
  simp only [lucasMid, locs, bind_eq, wp_bind, wp_mul, wp_mod, wp_sub, put_apply, Ref.mk.injEq]
  simp [h1, h2, h3, h4, h5, p0, p1, p2, p3, p4, p5, q0, q1, q2, q3, q4, q5, r0, r1, r2, r3, r4, r5]
  refine ⟨?_, fun r hr => ?_⟩
  · simp [LHolds, h5, put_apply]
  · obtain ⟨a0, a1, a2, a3, a4, a5⟩ := e r hr
    simp [put_apply, a0, a1, a2, a3, a4, a5]

theorem lucasLoop_wp {t c c0 : Nat} {p P Q k : Ref} (hp : Old t c p) (hP : Old t c P) (hQ : Old t c Q)
    (hk : Old t c k) (s : Nat) : ∀ (cnt : Nat) (m : Mem) (st : EC.Lucas), LHolds t c m st →
    wp t (lucasLoop p P Q k (locs t c) s cnt) (fun _ m' c' => c' = c0 ∧
      LHolds t c m' (EC.lucasLoop (m p) (m P) (m Q) (m k).toNat s cnt st) ∧ Same t c m m') m c0
  | 0, m, st, h => ⟨rfl, h, Same.refl t c m⟩
  | cnt + 1, m, st, h => by
    rw [lucasLoop]
    simp only [bind_eq, wp_bind, wp_read]
    refine wp_mono (lucasStep_wp (c0 := c0) hp hP hQ _ m st h) fun _ m1 c1 h1 => ?_
    obtain ⟨rfl, h1, hs⟩ := h1
    refine wp_mono (lucasLoop_wp hp hP hQ hk s cnt m1 _ h1) fun _ m2 c2 h2 => ?_
    obtain ⟨rfl, h2, hs2⟩ := h2
    rw [hs p hp, hs P hP, hs Q hQ, hs k hk] at h2
    exact ⟨rfl, h2, hs.trans hs2 le_rfl⟩

theorem lucasTail_wp {t c c0 : Nat} {p : Ref} (hp : Old t c p) : ∀ (n : Nat) (m : Mem) (st : EC.Lucas),
    LHolds t c m st → wp t (lucasTail p (locs t c) n) (fun _ m' c' => c' = c0 ∧
      LHolds t c m' (EC.lucasTail (m p) n st) ∧ Same t c m m') m c0
  | 0, m, st, h => ⟨rfl, h, Same.refl t c m⟩
  | n + 1, m, st, h => by
    rw [lucasTail]
    obtain ⟨h1, h2, h3, h4, h5⟩ := h
    have e := fun r (hr : Old t c r) => And.intro hr.ne0 (And.intro (hr.ne 1) (And.intro (hr.ne 2)
      (And.intro (hr.ne 3) (And.intro (hr.ne 4) (hr.ne 5)))))
    obtain ⟨p0, p1, p2, p3, p4, p5⟩ := e p hp
    simp only [locs, bind_eq, wp_bind, wp_mul, wp_mod, wp_sub, wp_lsh]
    generalize hm : Mem.put _ _ _ = m1
    have hs : Same t c m m1 := fun r hr => by
      obtain ⟨a0, a1, a2, a3, a4, a5⟩ := e r hr
      rw [← hm]
      simp [put_apply, a0, a1, a2, a3, a4, a5]
    have h1' : LHolds t c m1 { st with uh := st.uh * st.vl * m p
                                       vl := (st.vl * st.vl - st.ql * 2) % m p
                                       ql := (st.ql * st.ql) % m p } := by
      rw [← hm]
      simp [LHolds, put_apply, h1, h2, h3, h4, h5, p0, p1, p2, p5]
    refine wp_mono (lucasTail_wp (c0 := c0) hp n m1 _ h1') fun _ m2 c2 h2 => ?_
    obtain ⟨rfl, h2, hs2⟩ := h2
    rw [hs p hp] at h2
    exact ⟨rfl, h2, hs.trans hs2 le_rfl⟩

theorem fastLucas_wp {t c : Nat} {p P Q k : Ref} (hp : Old t c p) (hP : Old t c P) (hQ : Old t c Q)
    (hk : Old t c k) (m : Mem) :
    wp t (fastLucasSequence p P Q k) (fun r m' c' => r = (⟨t, c⟩, ⟨t, c + 1⟩) ∧ c' = c + 6 ∧
      (m' ⟨t, c⟩, m' ⟨t, c + 1⟩) = EC.fastLucasSequence (m p) (m P) (m Q) (m k).toNat ∧ Same t c m m') m c := by
  simp only [fastLucasSequence, bind_eq, wp_bind, wp_read, wp_newInt, wp_set, pure_eq, wp_ret]
  generalize hm : Mem.put _ _ _ = m1
  have e := fun r (hr : Old t c r) => And.intro hr.ne0 (And.intro (hr.ne 1) (And.intro (hr.ne 2)
    (And.intro (hr.ne 3) (And.intro (hr.ne 4) (hr.ne 5)))))
  have hs : Same t c m m1 := fun r hr => by
    obtain ⟨a0, a1, a2, a3, a4, a5⟩ := e r hr
    rw [← hm]
    simp [put_apply, a0, a1, a2, a3, a4, a5]
  have h1 : LHolds t c m1 { uh := 1, vl := 2, ql := 1, qh := 1, vh := m P } := by
    rw [← hm]
    obtain ⟨a0, a1, a2, a3, a4, a5⟩ := e P hP
    simp [LHolds, put_apply, Nat.add_assoc, a0, a1, a2, a3, a4]
  have hl : (⟨⟨t, c⟩, ⟨t, c + 1⟩, ⟨t, c + 1 + 1⟩, ⟨t, c + 1 + 1 + 1⟩, ⟨t, c + 1 + 1 + 1 + 1⟩,
      ⟨t, c + 1 + 1 + 1 + 1 + 1⟩⟩ : Locals) = locs t c := rfl
  rw [hl]
  refine wp_mono (lucasLoop_wp hp hP hQ hk _ _ m1 _ h1) fun _ m2 c2 h2 => ?_
  obtain ⟨rfl, h2, s2⟩ := h2
  have s02 := hs.trans s2 le_rfl
  refine wp_mono (lucasMid_wp hp hP hQ m2 _ h2) fun _ m3 c3 h3 => ?_
  obtain ⟨rfl, h3, s3⟩ := h3
  have s03 := s02.trans s3 le_rfl
  refine wp_mono (lucasTail_wp hp _ m3 _ h3) fun _ m4 c4 h4 => ?_
  obtain ⟨rfl, h4, s4⟩ := h4
  refine ⟨trivial, rfl, ?_, s03.trans s4 le_rfl⟩
  rw [s03 p hp, s02 p hp, s02 P hP, s02 Q hQ, hs p hp, hs P hP, hs Q hQ, hs k hk] at h4
  rw [h4.1, h4.2.1]
  rfl

/-! ## Square roots -/

/-- A program returns an object of its own. -/
def Fresh (t c : Nat) (r : Ref) (c' : Nat) : Prop := r.owner = t ∧ c ≤ r.idx ∧ r.idx < c'

theorem Fresh.old {t c c' : Nat} {r : Ref} (h : Fresh t c r c') : Old t c' r := Or.inr ⟨h.1, h.2.2⟩

theorem Fresh.mono {t c c' d d' : Nat} {r : Ref} (h : Fresh t c r c') (hd : d ≤ c) (hd' : c' ≤ d') : Fresh t d r d' :=
  ⟨h.1, hd.trans h.2.1, h.2.2.trans_le hd'⟩

/-- What a program that may return an object gives: nothing, or a new object with the value. -/
def Gives (t c : Nat) (m' : Mem) (c' : Nat) : Option Ref → Option Int → Prop
  | none, none => True
  | some r, some v => Fresh t c r c' ∧ m' r = v
  | _, _ => False

/-- The same for a program that may not have finished. -/
def Gives' (t c : Nat) (m' : Mem) (c' : Nat) : Option (Option Ref) → Option (Option Int) → Prop
  | none, none => True
  | some r, some v => Gives t c m' c' r v
  | _, _ => False

theorem Gives'.mono {t c d c' : Nat} {m' : Mem} {r : Option (Option Ref)} {v : Option (Option Int)}
    (h : Gives' t c m' c' r v) (hd : d ≤ c) : Gives' t d m' c' r v := by
  rcases r with _ | _ | r <;> rcases v with _ | _ | v <;> try exact h
  exact ⟨h.1.mono hd le_rfl, h.2⟩

theorem sqrt3mod4_wp {t c : Nat} {y P : Ref} (hy : Old t c y) (hP : Old t c P) (m : Mem) (p : Nat) (hp : m P = p) :
    wp t (sqrt3mod4 y P) (fun r m' c' => c ≤ c' ∧ Gives t c m' c' r (EC.sqrt3mod4 (m y) p) ∧ Same t c m m') m c := by
  have e := fun r (hr : Old t c r) => And.intro hr.ne0 (And.intro (hr.ne 1) (And.intro (hr.ne 2)
    (And.intro (hr.ne 3) (hr.ne 4))))
  obtain ⟨p0, p1, p2, p3, p4⟩ := e y hy
  obtain ⟨q0, q1, q2, q3, q4⟩ := e P hP
  simp only [sqrt3mod4, bind_eq, wp_bind, wp_read, wp_newInt, wp_rsh, wp_add, wp_exp, pure_eq, wp_ret]
  have h4 : ((p : Int) / 4 + 1).toNat = p / 4 + 1 := by omega
  simp only [put_apply, Nat.add_assoc, Ref.mk.injEq]
  simp [hp, h4, p0, p1, p2, p3, p4, q0, q1, q2, q3, q4]
  refine ⟨?_, fun r hr => ?_⟩
  · unfold EC.sqrt3mod4
    dsimp only
    split
    · refine ⟨⟨rfl, by simp, by simp⟩, ?_⟩
      simp [put_apply]
    · trivial
  · obtain ⟨a0, a1, a2, a3, a4⟩ := e r hr
    simp [put_apply, a0, a1, a2, a3, a4]

theorem old_put {t c : Nat} {r : Ref} (hr : Old t c r) (m : Mem) (i : Nat) (v : Int) (hi : c ≤ i) :
    m.put ⟨t, i⟩ v r = m r := by
  obtain ⟨j, rfl⟩ := Nat.exists_eq_add_of_le hi
  exact if_neg (hr.ne j)

theorem put_ne (m : Mem) (t i j : Nat) (v : Int) (h : j ≠ i) : m.put ⟨t, i⟩ v ⟨t, j⟩ = m ⟨t, j⟩ :=
  if_neg fun he => h (by injection he)

theorem put_fresh {t c c' : Nat} {r : Ref} (hr : Fresh t c r c') (m : Mem) (i : Nat) (v : Int) (hi : c' ≤ i) :
    m.put ⟨t, i⟩ v r = m r := old_put hr.old m i v hi

/-- A trivial or arithmetical goal. -/
macro "ar" : tactic => `(tactic| first | trivial | rfl | omega | (simp only [exec, pure_eq]; omega) | (dsimp only; omega) | (simp; done) | (simp; omega))

/-- Run the program of the goal. -/
macro "run" : tactic =>
  `(tactic| try simp only [bind_eq, wp_bind, wp_read, wp_newInt, wp_rsh, wp_lsh, wp_add, wp_sub, wp_mul, wp_mod, wp_set,
      wp_exp, wp_write, pure_eq, wp_ret, Nat.add_assoc, Nat.reduceAdd])

theorem tryDraw_wp {t c : Nat} {P fourQ le qm : Ref} (hP : Old t c P) (hf : Old t c fourQ) (hl : Old t c le)
    (hq : Old t c qm) (m : Mem) (p : Nat) (hp : m P = p) (hle : (m le).toNat = (p - 1) / 2) (hqm : m qm = (p : Int) - 1)
    (lp : Nat) : wp t (tryDraw P fourQ le qm lp) (fun r m' c' => c ≤ c' ∧
      Gives t c m' c' r (if EC.drawOk p (m fourQ) lp then some (lp : Int) else none) ∧ Same t c m m') m c := by
  have oP := old_put hP
  have oF := old_put hf
  have oL := old_put hl
  have oQ := old_put hq
  unfold tryDraw
  run
  simp only [put_same, put_ne, oP, oF, oL, oQ, ne_eq, Nat.le_add_right, Nat.left_eq_add, Nat.add_eq_left,
    one_ne_zero, not_false_eq_true, le_refl, hp, Nat.cast_lt, EC.drawOk]
  by_cases h : lp < p
  · simp only [h, if_true, decide_true, Bool.true_and]
    run
    simp only [put_same, put_ne, oP, oF, oL, oQ, ne_eq, Nat.le_add_right, Nat.left_eq_add, Nat.add_eq_left,
      one_ne_zero, not_false_eq_true, le_refl, hp, hle, hqm]
    refine ⟨by ar, ?_, fun r hr => by simp [old_put hr]⟩
    by_cases h' : EC.expMod ((lp : Int) * lp - m fourQ) ((p - 1) / 2) p = (p : Int) - 1
    · simp only [h', decide_true, if_true]
      exact ⟨⟨rfl, by ar, by ar⟩, by simp [put_ne]⟩
    · simp only [h', decide_false, if_false, Bool.false_eq_true]
      trivial
  · simp only [h, if_false, decide_false, Bool.false_and, Bool.false_eq_true]
    run
    exact ⟨by ar, trivial, fun r hr => by simp [old_put hr]⟩

/-- What one accepted number leads to. -/
def rootOf (p : Nat) (fourQ Q : Int) (k : Nat) (lp : Int) : Option (Option Int) :=
  let uv := EC.fastLucasSequence p lp Q k
  if (uv.2 * uv.2) % p = fourQ then some (some ((if uv.2 % 2 = 1 then uv.2 + p else uv.2) / 2))
  else if uv.1 = 1 ∨ uv.1 = (p : Int) - 1 then some none
  else none

theorem tryRoot_wp {t c : Nat} {P lP lQ fourQ qm k : Ref} (hP : Old t c P) (hlP : Old t c lP) (hlQ : Old t c lQ)
    (hf : Old t c fourQ) (hq : Old t c qm) (hk : Old t c k) (m : Mem) (p : Nat) (hp : m P = p)
    (hqm : m qm = (p : Int) - 1) : wp t (tryRoot P lP lQ fourQ qm k) (fun r m' c' => c ≤ c' ∧
      Gives' t c m' c' r (rootOf p (m fourQ) (m lQ) (m k).toNat (m lP)) ∧ Same t c m m') m c := by
  unfold tryRoot
  simp only [bind_eq, wp_bind]
  refine wp_mono (fastLucas_wp hP hlP hlQ hk m) fun r m1 c1 h1 => ?_
  obtain ⟨rfl, rfl, h1, s1⟩ := h1
  rw [hp] at h1
  have hu := congrArg Prod.fst h1
  have hv := congrArg Prod.snd h1
  dsimp only at hu hv
  have oP := fun m i v (hi : c + 6 ≤ i) => old_put (hP.mono (Nat.le_add_right c 6)) m i v hi
  have oF := fun m i v (hi : c + 6 ≤ i) => old_put (hf.mono (Nat.le_add_right c 6)) m i v hi
  have oQ := fun m i v (hi : c + 6 ≤ i) => old_put (hq.mono (Nat.le_add_right c 6)) m i v hi
  have eP := (s1 P hP).trans hp
  have eF := s1 fourQ hf
  have eQ := (s1 qm hq).trans hqm
  run
  simp only [put_same, put_ne, oP, oF, oQ, ne_eq, Nat.add_left_cancel_iff, Nat.reduceEqDiff, not_false_eq_true,
    le_refl, eP, eF, eQ, hv, rootOf]
  have hc : ∀ r, Old t c r → ∀ i, c ≤ i → r ≠ ⟨t, i⟩ := fun r hr i hi => by
    obtain ⟨j, rfl⟩ := Nat.exists_eq_add_of_le hi
    exact hr.ne j
  split
  · run
    simp only [put_same, put_ne, ne_eq, Nat.add_left_cancel_iff, Nat.reduceEqDiff, not_false_eq_true, hv]
    by_cases h2 : (EC.fastLucasSequence p (m lP) (m lQ) (m k).toNat).2 % 2 = 1
    · simp only [h2, if_true]
      run
      simp only [put_same, put_ne, oP, ne_eq, Nat.add_left_cancel_iff, Nat.reduceEqDiff, not_false_eq_true, le_refl,
        eP, hv]
      exact ⟨by ar, ⟨⟨rfl, by ar, by ar⟩, by simp⟩, fun r hr => by simp [old_put hr, s1 r hr]⟩
    · simp only [h2, if_false]
      run
      exact ⟨by ar, ⟨⟨rfl, by ar, by ar⟩, by simp [put_ne, hv]⟩, fun r hr => by simp [old_put hr, s1 r hr]⟩
  · run
    simp only [put_same, put_ne, oP, oF, oQ, ne_eq, Nat.add_left_cancel_iff, Nat.reduceEqDiff, not_false_eq_true, Nat.left_eq_add, Nat.add_eq_left,
      le_refl, eP, eF, eQ, hu, Nat.reduceLeDiff, Nat.add_le_add_iff_left]
    refine ⟨by ar, ?_, fun r hr => by simp [old_put hr, s1 r hr]⟩
    split
    · trivial
    · trivial

theorem lucasSearch_cons (p : Nat) (Q fourQ : Int) (k lp : Nat) (rest : List Nat) :
    EC.lucasSearch p Q fourQ k (lp :: rest) = if EC.drawOk p fourQ lp then
        match rootOf p fourQ Q k lp with
        | some r => some r
        | none => EC.lucasSearch p Q fourQ k rest
      else EC.lucasSearch p Q fourQ k rest := by
  rw [EC.lucasSearch]
  unfold rootOf
  dsimp only
  split
  · split
    · rfl
    · split <;> rfl
  · rfl

theorem lucasSearch_wp {P lQ fourQ le qm k : Ref} (p : Nat) : ∀ (draws : List Nat) {t c : Nat} (hP : Old t c P)
    (hlQ : Old t c lQ) (hf : Old t c fourQ) (hl : Old t c le) (hq : Old t c qm) (hk : Old t c k) (m : Mem) (hp : m P = p)
    (hle : (m le).toNat = (p - 1) / 2) (hqm : m qm = (p : Int) - 1),
    wp t (lucasSearch P lQ fourQ le qm k draws) (fun r m' c' => c ≤ c' ∧
      Gives' t c m' c' r (EC.lucasSearch p (m lQ) (m fourQ) (m k).toNat draws) ∧ Same t c m m') m c
  | [], t, c, _, _, _, _, _, _, m, _, _, _ => ⟨le_rfl, trivial, Same.refl t c m⟩
  | lp :: rest, t, c, hP, hlQ, hf, hl, hq, hk, m, hp, hle, hqm => by
    rw [lucasSearch, lucasSearch_cons]
    simp only [bind_eq, wp_bind]
    refine wp_mono (tryDraw_wp hP hf hl hq m p hp hle hqm lp) fun r m1 c1 h1 => ?_
    obtain ⟨l1, g1, s1⟩ := h1
    have next : ∀ {c2 : Nat} {m2 : Mem}, c ≤ c2 → Same t c m m2 → 
        wp t (lucasSearch P lQ fourQ le qm k rest) (fun r m' c' => c ≤ c' ∧
          Gives' t c m' c' r (EC.lucasSearch p (m lQ) (m fourQ) (m k).toNat rest) ∧ Same t c m m') m2 c2 := by
      intro c2 m2 l2 s2
      refine wp_mono (lucasSearch_wp p rest (hP.mono l2) (hlQ.mono l2) (hf.mono l2) (hl.mono l2) (hq.mono l2) (hk.mono l2)
        m2 ((s2 P hP).trans hp) ((congrArg _ (s2 le hl)).trans hle) ((s2 qm hq).trans hqm)) fun r m3 c3 h3 => ?_
      obtain ⟨l3, g3, s3⟩ := h3
      rw [s2 lQ hlQ, s2 fourQ hf, s2 k hk] at g3
      exact ⟨l2.trans l3, g3.mono l2, s2.trans s3 l2⟩
    cases hd : EC.drawOk p (m fourQ) lp with
    | false =>
      rw [hd] at g1
      cases r with
      | some r => exact g1.elim
      | none => exact next l1 s1
    | true =>
      rw [hd] at g1
      cases r with
      | none => exact g1.elim
      | some r =>
        obtain ⟨f1, v1⟩ := g1
        simp only [bind_eq, wp_bind]
        refine wp_mono (tryRoot_wp (hP.mono l1) f1.old (hlQ.mono l1) (hf.mono l1) (hq.mono l1) (hk.mono l1) m1 p
          ((s1 P hP).trans hp) ((s1 qm hq).trans hqm)) fun r2 m2 c2 h2 => ?_
        obtain ⟨l2, g2, s2⟩ := h2
        rw [s1 lQ hlQ, s1 fourQ hf, s1 k hk, v1] at g2
        have s02 := s1.trans s2 l1
        rcases r2 with _ | r2
        · rcases hr : rootOf p (m fourQ) (m lQ) (m k).toNat lp with _ | v
          · exact next (l1.trans l2) s02
          · rw [hr] at g2
            exact g2.elim
        · rcases hr : rootOf p (m fourQ) (m lQ) (m k).toNat lp with _ | v
          · rw [hr] at g2
            exact g2.elim
          · rw [hr] at g2
            exact ⟨l1.trans l2, Gives'.mono (r := some r2) (v := some v) g2 l1, s02⟩

/-- The result of the branch without a simple exponent. -/
def sqrtLucasV (y : Int) (p : Nat) (draws : List Nat) : Option (Option Int) :=
  if EC.expMod y ((p - 1) / 2) p ≠ 1 then some none
  else EC.lucasSearch p y ((y * 4) % p) ((p - 1) / 4 * 2 + 1) draws

theorem sqrtLucas_wp {t c : Nat} {y P : Ref} (hy : Old t c y) (hP : Old t c P) (m : Mem) (p : Nat) (hp : m P = p)
    (h0 : 0 < p) (draws : List Nat) : wp t (sqrtLucas y P draws) (fun r m' c' => c ≤ c' ∧
      Gives' t c m' c' r (sqrtLucasV (m y) p draws) ∧ Same t c m m') m c := by
  have oP := old_put hP
  have oy := old_put hy
  have e1 : (((p : Int) - 1) / 2).toNat = (p - 1) / 2 := by omega
  have e2 : (((p : Int) - 1) / 4 * 2 + 1).toNat = (p - 1) / 4 * 2 + 1 := by omega
  unfold sqrtLucas sqrtLucasV
  run
  simp [put_ne, oP, oy, hp, e1]
  split
  · run
    generalize hm : Mem.put _ _ _ = m1
    have s1 : Same t c m m1 := fun r hr => by rw [← hm]; simp [old_put hr]
    refine wp_mono (lucasSearch_wp p draws (hP.mono (by ar)) (old_new (by ar)) (old_new (by ar)) (old_new (by ar))
      (old_new (by ar)) (old_new (by ar)) m1 ((s1 P hP).trans hp) ?_ ?_) fun r m2 c2 h2 => ?_
    · rw [← hm]; simp [put_ne, oP, oy, hp, e1]
    · rw [← hm]; simp [put_ne, oP, oy, hp, e1]
    obtain ⟨l2, g2, s2⟩ := h2
    refine ⟨by ar, ?_, s1.trans s2 (by ar)⟩
    have v1 : m1 ⟨t, c + 7⟩ = m y := by rw [← hm]; simp [put_ne, oP, oy, hp, e1]
    have v2 : m1 ⟨t, c + 8⟩ = (m y * 4) % p := by rw [← hm]; simp [put_ne, oP, oy, hp, e1]
    have v3 : (m1 ⟨t, c + 5⟩).toNat = (p - 1) / 4 * 2 + 1 := by rw [← hm]; simp [put_ne, oP, oy, hp, e2]
    rw [v1, v2, v3] at g2
    exact g2.mono (by ar)
  · run
    exact ⟨by ar, trivial, fun r hr => by simp [old_put hr]⟩

theorem curveSqrt_wp {t c : Nat} {y P : Ref} (hy : Old t c y) (hP : Old t c P) (m : Mem) (p : Nat) (hp : m P = p)
    (h0 : 0 < p) (draws : List Nat) : wp t (curveSqrt y P draws) (fun r m' c' => c ≤ c' ∧
      Gives' t c m' c' r (EC.curveSqrt (m y) p draws) ∧ Same t c m m') m c := by
  unfold curveSqrt EC.curveSqrt
  run
  rw [hp, Int.toNat_natCast]
  split
  · run
    exact sqrt3mod4_wp hy hP m p hp
  · exact sqrtLucas_wp hy hP m p hp h0 draws

/-! ## Curves and keys -/

/-- The number objects of a curve were there before and hold its parameters. -/
structure CurveObj.At (t c : Nat) (m : Mem) (o : CurveObj) : Prop where
  oP : Old t c o.P
  oN : Old t c o.N
  oB : Old t c o.B
  oGx : Old t c o.Gx
  oGy : Old t c o.Gy
  P : m o.P = o.c.P
  N : m o.N = o.c.N
  B : m o.B = o.c.B
  Gx : m o.Gx = o.c.Gx
  Gy : m o.Gy = o.c.Gy

theorem CurveObj.At.mono {t c c' : Nat} {m m' : Mem} {o : CurveObj} (h : o.At t c m) (hc : c ≤ c') (hs : Same t c m m') :
    o.At t c' m' :=
  ⟨h.oP.mono hc, h.oN.mono hc, h.oB.mono hc, h.oGx.mono hc, h.oGy.mono hc, (hs _ h.oP).trans h.P, (hs _ h.oN).trans h.N,
    (hs _ h.oB).trans h.B, (hs _ h.oGx).trans h.Gx, (hs _ h.oGy).trans h.Gy⟩

/-- A pair of objects holds a pair of numbers. -/
def PairAt (t c : Nat) (m : Mem) (q : Ref × Ref) (v : Nat × Nat) : Prop :=
  Old t c q.1 ∧ Old t c q.2 ∧ m q.1 = v.1 ∧ m q.2 = v.2

theorem PairAt.mono {t c c' : Nat} {m m' : Mem} {q : Ref × Ref} {v : Nat × Nat} (h : PairAt t c m q v) (hc : c ≤ c')
    (hs : Same t c m m') : PairAt t c' m' q v :=
  ⟨h.1.mono hc, h.2.1.mono hc, (hs _ h.1).trans h.2.2.1, (hs _ h.2.1).trans h.2.2.2⟩

/-- The objects of a public key were there before and hold the key. -/
structure PubObj.At (t c : Nat) (m : Mem) (o : PubObj) (k : ECPub) : Prop where
  curve : o.curve.At t c m
  same : o.curve.c = k.curve
  xy : PairAt t c m (o.X, o.Y) (k.x, k.y)

theorem PubObj.At.mono {t c c' : Nat} {m m' : Mem} {o : PubObj} {k : ECPub} (h : o.At t c m k) (hc : c ≤ c')
    (hs : Same t c m m') : o.At t c' m' k := ⟨h.curve.mono hc hs, h.same, h.xy.mono hc hs⟩

/-- The objects of a private key were there before and hold the key. -/
structure PrivObj.At (t c : Nat) (m : Mem) (o : PrivObj) (k : ECPriv) : Prop where
  pub : o.pub.At t c m k.pub
  oD : Old t c o.D
  D : m o.D = k.D

theorem PrivObj.At.mono {t c c' : Nat} {m m' : Mem} {o : PrivObj} {k : ECPriv} (h : o.At t c m k) (hc : c ≤ c')
    (hs : Same t c m m') : o.At t c' m' k := ⟨h.pub.mono hc hs, h.oD.mono hc, (hs _ h.oD).trans h.D⟩

theorem ySquareOf_wp {t c : Nat} {o : CurveObj} {m : Mem} (h : o.At t c m) (k1name : String) (x : Bytes) :
    wp t (ySquareOf k1name o x) (fun r m' c' => c ≤ c' ∧ Fresh t c r.1 c' ∧ Fresh t c r.2 c' ∧ r.1 ≠ r.2 ∧
      m' r.1 = natOfBytes x ∧ m' r.2 = EC.ySquareOf k1name o.c (natOfBytes x) ∧ Same t c m m') m c := by
  have oP := old_put h.oP
  have oB := old_put h.oB
  unfold ySquareOf EC.ySquareOf
  run
  split
  · run
    simp [put_ne, oP, oB, h.P, h.B]
    exact ⟨⟨rfl, by ar, by ar⟩, ⟨rfl, by ar, by ar⟩, fun r hr => by simp [old_put hr]⟩
  · run
    simp [put_ne, oP, oB, h.P, h.B]
    exact ⟨⟨rfl, by ar, by ar⟩, ⟨rfl, by ar, by ar⟩, fun r hr => by simp [old_put hr]⟩

/-- A public key that a function returns. -/
structure NewPub (t c : Nat) (m : Mem) (c' : Nat) (o : CurveObj) (q : PubObj) (k : ECPub) : Prop where
  curve : q.curve = o
  same : o.c = k.curve
  X : Fresh t c q.X c'
  Y : Fresh t c q.Y c'
  ne : q.X ≠ q.Y
  x : m q.X = k.x
  y : m q.Y = k.y

/-- What decoding gives. -/
def DecGives (t c : Nat) (m : Mem) (c' : Nat) (o : Option CurveObj) : Option (Res PubObj) → Option (Res ECPub) → Prop
  | none, none => True
  | some (.ok q), some (.ok k) => ∃ o', o = some o' ∧ NewPub t c m c' o' q k
  | some (.err e), some (.err e') => e = e'
  | some (.panic e), some (.panic e') => e = e'
  | _, _ => False

theorem fastLucas_range (p : Nat) (hp : 0 < p) (P Q : Int) (k : Nat) :
    0 ≤ (EC.fastLucasSequence p P Q k).2 ∧ (EC.fastLucasSequence p P Q k).2 < p := by
  unfold EC.fastLucasSequence
  dsimp only
  have hp' : (0 : Int) < p := by omega
  exact EC.lucasTail_range p hp _ _ (Int.emod_nonneg _ hp'.ne') (Int.emod_lt_of_pos _ hp')

theorem lucasSearch_range (p : Nat) (hp : 0 < p) (Q fourQ : Int) (k : Nat) (v : Int) : ∀ draws : List Nat,
    EC.lucasSearch p Q fourQ k draws = some (some v) → 0 ≤ v ∧ v ≤ p
  | [], h => by cases h
  | lp :: rest, h => by
    rw [lucasSearch_cons] at h
    split at h
    · unfold rootOf at h
      dsimp only at h
      have hr := fastLucas_range p hp lp Q k
      split at h
      · rename_i r e
        split at e
        · cases h
          injection e with e
          injection e with e
          rw [← e]
          split <;> omega
        · split at e
          · cases h
            cases e
          · cases e
      · exact lucasSearch_range p hp Q fourQ k v rest h
    · exact lucasSearch_range p hp Q fourQ k v rest h

theorem curveSqrt_range (y : Int) (p : Nat) (h0 : 0 < p) (draws : List Nat) (v : Int)
    (h : EC.curveSqrt y p draws = some (some v)) : 0 ≤ v ∧ v ≤ p := by
  have hp' : (0 : Int) < p := by omega
  unfold EC.curveSqrt at h
  split at h
  · unfold EC.sqrt3mod4 at h
    dsimp only at h
    split at h
    · injection h with h
      injection h with h
      rw [← h, EC.expMod_eq]
      exact ⟨Int.emod_nonneg _ hp'.ne', (Int.emod_lt_of_pos _ hp').le⟩
    · cases h
  · split at h
    · cases h
    · exact lucasSearch_range p h0 _ _ _ v draws h

theorem chooseY_wp {t c : Nat} {o : CurveObj} {m : Mem} (h : o.At t c m) (yT : Nat) {y : Ref} (hy : Old t c y)
    (h0 : 0 ≤ m y) (hp : m y ≤ o.c.P) :
    wp t (chooseY o yT y) (fun r m' c' => r = ⟨t, c⟩ ∧ c' = c + 1 ∧
      m' r = ((if (EC.isEven (m y).toNat && yT ≠ 0) || (!EC.isEven (m y).toNat && yT ≠ 1) then o.c.P - (m y).toNat
        else (m y).toNat : Nat) : Int) ∧ Same t c m m') m c := by
  have oP := old_put h.oP
  have oy := old_put hy
  unfold chooseY
  run
  simp only [oy, le_refl]
  split
  · run
    simp [oP, oy, h.P]
    exact ⟨by omega, fun r hr => by simp [old_put hr]⟩
  · run
    simp [oP, oy, h.P]
    exact ⟨by omega, fun r hr => by simp [old_put hr]⟩

theorem deCompress_wp {t c : Nat} {o : CurveObj} {m : Mem} (h : o.At t c m) (h0 : 0 < o.c.P) (k1name : String) (yT : Nat)
    (x : Bytes) (draws : List Nat) : wp t (deCompress k1name yT x o draws) (fun r m' c' => c ≤ c' ∧
      DecGives t c m' c' (some o) r (EC.deCompress k1name yT x o.c draws) ∧ Same t c m m') m c := by
  unfold deCompress EC.deCompress
  simp only [bind_eq, wp_bind]
  refine wp_mono (ySquareOf_wp h k1name x) fun r m1 c1 h1 => ?_
  obtain ⟨l1, f1, f1', n1, v1, v1', s1⟩ := h1
  have A1 := h.mono l1 s1
  refine wp_mono (curveSqrt_wp f1'.old A1.oP m1 _ A1.P h0 draws) fun r2 m2 c2 h2 => ?_
  obtain ⟨l2, g2, s2⟩ := h2
  rw [v1'] at g2
  have s02 := s1.trans s2 l1
  have hr := curveSqrt_range (EC.ySquareOf k1name o.c (natOfBytes x)) o.c.P h0 draws
  rcases r2 with _ | _ | r2 <;>
    rcases hv : EC.curveSqrt (EC.ySquareOf k1name o.c (natOfBytes x)) o.c.P draws with _ | _ | v <;>
    rw [hv] at g2 <;> try exact g2.elim
  · exact ⟨l1.trans l2, trivial, s02⟩
  · exact ⟨l1.trans l2, rfl, s02⟩
  · obtain ⟨f2, v2⟩ := g2
    have hb := hr v hv
    rw [← v2] at hb
    have A2 := A1.mono l2 s2
    simp only [bind_eq, wp_bind]
    refine wp_mono (chooseY_wp A2 yT f2.old hb.1 hb.2) fun r3 m3 c3 h3 => ?_
    obtain ⟨rfl, rfl, v3, s3⟩ := h3
    rw [v2] at v3
    run
    refine ⟨by omega, ⟨o, rfl, rfl, rfl, f1.mono le_rfl (by omega), ⟨rfl, by ar, by ar⟩, ?_, ?_, v3⟩, s02.trans s3 (by omega)⟩
    · exact (f1.old.mono l2).ne0
    · exact ((s3 _ (f1.old.mono l2)).trans (s2 _ f1.old)).trans v1

theorem decode_wp {t c : Nat} {o : Option CurveObj} {m : Mem} (h : ∀ o', o = some o' → o'.At t c m ∧ 0 < o'.c.P)
    (k1name : String) (data : Bytes) (draws : List Nat) : wp t (decodePublicKey k1name data o draws) (fun r m' c' => c ≤ c' ∧
      DecGives t c m' c' o r (EC.decodePublicKey k1name data (o.map (·.c)) draws) ∧ Same t c m m') m c := by
  unfold decodePublicKey EC.decodePublicKey
  cases o with
  | none => exact ⟨le_rfl, rfl, Same.refl t c m⟩
  | some o =>
    obtain ⟨h, h0⟩ := h o rfl
    dsimp only [Option.map_some]
    split
    · exact ⟨le_rfl, rfl, Same.refl t c m⟩
    · run
      have s1 : ∀ v, Same t c m (m.put ⟨t, c⟩ v) := fun v r hr => by simp [old_put hr]
      split
      · split
        · run
          exact ⟨by ar, rfl, s1 _⟩
        · run
          refine ⟨by ar, ⟨o, rfl, rfl, rfl, ⟨rfl, by ar, by ar⟩, ⟨rfl, by ar, by ar⟩, by simp, by simp [put_ne], by simp⟩,
            fun r hr => by simp [old_put hr]⟩
      · split
        · refine wp_mono (deCompress_wp (h.mono (by ar) (s1 _)) h0 k1name _ _ draws) fun r2 m2 c2 h2 => ?_
          obtain ⟨l2, g2, s2⟩ := h2
          refine ⟨by omega, ?_, (s1 _).trans s2 (by ar)⟩
          revert g2
          generalize EC.deCompress k1name _ _ o.c draws = w
          intro g2
          rcases r2 with _ | r2 | r2 | r2 <;> rcases w with _ | w | w | w <;> try exact g2
          obtain ⟨o', ho, g⟩ := g2
          exact ⟨o', ho, g.curve, g.same, g.X.mono (by omega) le_rfl, g.Y.mono (by omega) le_rfl, g.ne, g.x, g.y⟩
        · run
          exact ⟨by ar, rfl, s1 _⟩

/-! ## Signatures -/

theorem wp_newPair {t c : Nat} {m : Mem} (q : Nat × Nat) {Q : Ref × Ref → Mem → Nat → Prop} :
    wp t (newPair q) Q m c ↔ Q (⟨t, c⟩, ⟨t, c + 1⟩) ((m.put ⟨t, c⟩ q.1).put ⟨t, c + 1⟩ q.2) (c + 2) := Iff.rfl

/-- The variable `one`. -/
def OneAt (t c : Nat) (m : Mem) (one : Ref) : Prop := Old t c one ∧ m one = 1

theorem OneAt.mono {t c c' : Nat} {m m' : Mem} {one : Ref} (h : OneAt t c m one) (hc : c ≤ c') (hs : Same t c m m') :
    OneAt t c' m' one := ⟨h.1.mono hc, (hs _ h.1).trans h.2⟩

/-- Two numbers that a function returns. -/
def PGives (t c : Nat) (m : Mem) (c' : Nat) : Option (Ref × Ref) → Option (Nat × Nat) → Prop
  | none, none => True
  | some q, some v => Fresh t c q.1 c' ∧ Fresh t c q.2 c' ∧ q.1 ≠ q.2 ∧ m q.1 = v.1 ∧ m q.2 = v.2
  | _, _ => False

theorem PGives.mono {t c d c' : Nat} {m : Mem} {r : Option (Ref × Ref)} {v : Option (Nat × Nat)}
    (h : PGives t c m c' r v) (hd : d ≤ c) : PGives t d m c' r v := by
  rcases r with _ | r <;> rcases v with _ | v <;> try exact h
  exact ⟨h.1.mono hd le_rfl, h.2.1.mono hd le_rfl, h.2.2⟩

theorem randFieldElement_wp {t c : Nat} {o : CurveObj} {m : Mem} {one : Ref} (h : o.At t c m) (h1 : OneAt t c m one)
    (hN : 2 ≤ o.c.N) (b : Bytes) : wp t (randFieldElement o one b) (fun r m' c' => r = ⟨t, c⟩ ∧ c' = c + 2 ∧
      m' r = (SM2.randFieldElement o.c b : Nat) ∧ Same t c m m') m c := by
  have oN := old_put h.oN
  have o1 := old_put h1.1
  unfold randFieldElement SM2.randFieldElement
  run
  simp [put_ne, oN, o1, h.N, h1.2]
  refine ⟨?_, fun r hr => by simp [old_put hr]⟩
  rw [show ((o.c.N - 1 - 1 : Nat) : Int) = (o.c.N : Int) - 1 - 1 by omega]

theorem fermatInverse_wp {t c : Nat} {k P : Ref} {m : Mem} (hk : Old t c k) (hP : Old t c P) (kv p : Nat) (ek : m k = kv)
    (ep : m P = p) : wp t (fermatInverse k P) (fun r m' c' => r = ⟨t, c + 2⟩ ∧ c' = c + 3 ∧
      m' r = (SM2.fermatInverse kv p : Nat) ∧ Same t c m m') m c := by
  have oP := old_put hP
  have ok := old_put hk
  unfold fermatInverse SM2.fermatInverse
  run
  simp [put_ne, oP, ok, ek, ep]
  refine ⟨?_, fun r hr => by simp [old_put hr]⟩
  rw [EC.expMod_eq, Primality.powMod_eq]
  push_cast
  rw [show ((p : Int) - 2).toNat = p - 2 by omega]

theorem invOf_wp {t c : Nat} {o : CurveObj} {m : Mem} {d1 : Ref} (h : o.At t c m) (hd : Old t c d1) (E : SM2.Ext)
    (dv : Nat) (ed : m d1 = dv) : wp t (invOf E o d1) (fun r m' c' => c ≤ c' ∧ Fresh t c r c' ∧
      m' r = (SM2.invOf E o.c.N dv : Nat) ∧ Same t c m m') m c := by
  unfold invOf SM2.invOf
  cases hE : E.inverse with
  | some f =>
    dsimp only
    run
    rw [ed]
    exact ⟨by ar, ⟨rfl, by ar, by ar⟩, by simp, fun r hr => by simp [old_put hr]⟩
  | none =>
    dsimp only
    refine wp_mono (fermatInverse_wp hd h.oN dv o.c.N ed h.N) fun r m1 c1 h1 => ?_
    obtain ⟨rfl, rfl, v1, s1⟩ := h1
    exact ⟨by ar, ⟨rfl, by ar, by ar⟩, v1, s1⟩

theorem signTry_wp {t c : Nat} {o : CurveObj} {m : Mem} {one e : Ref} (h : o.At t c m) (h1 : OneAt t c m one)
    (he : Old t c e) (ev : Nat) (hev : m e = ev) (hN : 2 ≤ o.c.N) (E : SM2.Ext) (pk b : Bytes) :
    wp t (signTry E o one e pk b) (fun r m' c' => c ≤ c' ∧
      PGives t c m' c' r (SM2.signTry E o.c.N (natOfBytes pk) ev (SM2.randFieldElement o.c b)) ∧ Same t c m m') m c := by
  unfold signTry SM2.signTry
  simp only [bind_eq, wp_bind]
  refine wp_mono (randFieldElement_wp h h1 hN b) fun r m1 c1 hr1 => ?_
  obtain ⟨rfl, rfl, v1, s1⟩ := hr1
  have A1 := h.mono (c' := c + 2) (by ar) s1
  have B1 := h1.mono (c' := c + 2) (by ar) s1
  have oN := old_put A1.oN
  have o1 := old_put B1.1
  have oe := old_put (he.mono (c' := c + 2) (by ar))
  have ee := (s1 e he).trans hev
  generalize SM2.randFieldElement o.c b = k at *
  run
  simp only [wp_newPair]
  run
  rw [v1, Int.toNat_natCast]
  have er : (((E.ops.baseMult k).1 : Int) + ev) % (o.c.N : Int) = (((E.ops.baseMult k).1 + ev) % o.c.N : Nat) := by
    push_cast
    rfl
  simp (disch := omega) only [put_same, put_ne, oN, o1, oe, A1.N, ee, v1, er]
  generalize ((E.ops.baseMult k).1 + ev) % o.c.N = rv
  have ec : ((rv : Int) ≠ 0 ∧ (rv : Int) + k ≠ o.c.N) ↔ (rv ≠ 0 ∧ rv + k ≠ o.c.N) := by omega
  simp only [ec]
  by_cases hc : rv ≠ 0 ∧ rv + k ≠ o.c.N
  · simp only [if_pos hc]
    run
    generalize hm : Mem.put _ _ _ = m2
    have s2 : Same t (c + 2) m1 m2 := fun r hr => by rw [← hm]; simp (disch := omega) [old_put hr]
    have A2 := A1.mono (c' := c + 9) (by ar) s2
    refine wp_mono (invOf_wp (d1 := ⟨t, c + 8⟩) A2 (old_new (by ar)) E (natOfBytes pk + 1) ?_) fun r m3 c3 h3 => ?_
    · rw [← hm]
      simp (disch := omega) only [put_same, put_ne, o1, B1.2]
      push_cast
      rfl
    obtain ⟨l3, f3, v3, s3⟩ := h3
    have A3 := A2.mono l3 s3
    have w3 : m3 ⟨t, c + 7⟩ = (k : Int) - (natOfBytes pk * rv : Nat) := by
      rw [s3 _ (old_new (by ar)), ← hm]
      simp (disch := omega) only [put_same, put_ne, v1]
      push_cast
      rfl
    have w3' : m3 ⟨t, c + 2⟩ = rv := by
      rw [s3 _ (old_new (by ar)), ← hm]
      simp (disch := omega) only [put_same, put_ne]
    have hN7 : o.N ≠ ⟨t, c + 7⟩ := A1.oN.ne 5
    simp (disch := omega) only [put_same, put_apply, hN7, if_false, A3.N, w3, v3]
    generalize ((k : Int) - (natOfBytes pk * rv : Nat)) * (SM2.invOf E o.c.N (natOfBytes pk + 1) : Nat) = w
    have s03 : Same t c m m3 := (s1.trans s2 (by ar)).trans s3 (by ar)
    refine ⟨by omega, ?_, fun q hq => ?_⟩
    · split
      · refine ⟨⟨rfl, by ar, by ar⟩, ⟨rfl, by ar, by ar⟩, by simp, ?_, ?_⟩
        · simp [put_ne, w3']
        · simp
          have : (0 : Int) ≤ w % o.c.N := Int.emod_nonneg _ (by omega)
          omega
      · trivial
    · rw [old_put hq _ _ _ (by ar), old_put hq _ _ _ (by ar)]
      exact s03 q hq
  · simp only [if_neg hc]
    run
    refine ⟨by ar, trivial, fun q hq => ?_⟩
    have h2 := hq.mono (c' := c + 2) (by ar)
    have oq := old_put h2
    simp (disch := omega) only [oq]
    exact s1 q hq

theorem signLoop_wp {o : CurveObj} {one e : Ref} (ev : Nat) (hN : 2 ≤ o.c.N) (E : SM2.Ext) (pk : Bytes) :
    ∀ (bs : List Bytes) {t c : Nat} {m : Mem}, o.At t c m → OneAt t c m one → Old t c e → m e = ev →
    wp t (signLoop E o one e pk bs) (fun r m' c' => c ≤ c' ∧
      PGives t c m' c' r (SM2.signLoop E o.c (natOfBytes pk) ev bs) ∧ Same t c m m') m c
  | [], t, c, m, _, _, _, _ => ⟨le_rfl, trivial, Same.refl t c m⟩
  | b :: bs, t, c, m, h, h1, he, hev => by
    rw [signLoop, SM2.signLoop]
    simp only [bind_eq, wp_bind]
    refine wp_mono (signTry_wp h h1 he ev hev hN E pk b) fun r m1 c1 hr => ?_
    obtain ⟨l1, g1, s1⟩ := hr
    rcases r with _ | r <;>
      rcases hv : SM2.signTry E o.c.N (natOfBytes pk) ev (SM2.randFieldElement o.c b) with _ | v <;>
      rw [hv] at g1 <;> try exact g1.elim
    · refine wp_mono (signLoop_wp ev hN E pk bs (h.mono l1 s1) (h1.mono l1 s1) (he.mono l1) ((s1 e he).trans hev))
        fun r2 m2 c2 h2 => ?_
      obtain ⟨l2, g2, s2⟩ := h2
      exact ⟨l1.trans l2, g2.mono l1, s1.trans s2 l1⟩
    · exact ⟨l1, g1, s1⟩

theorem getZ_wp {t c : Nat} {pub : PubObj} {k : ECPub} {m : Mem} (h : pub.At t c m k) (H : Bytes → Bytes)
    (msg id : Bytes) : wp t (getZ H msg pub id) (fun r m' c' => r = SM2.getZ H msg k id ∧ m = m' ∧ c = c') m c := by
  unfold getZ SM2.getZ
  rw [h.same]
  split
  · exact ⟨rfl, rfl, rfl⟩
  · run
    rw [h.curve.B, h.curve.Gx, h.curve.Gy, h.xy.2.2.1, h.xy.2.2.2, h.same]
    simp only [Int.toNat_natCast]
    exact ⟨trivial, trivial, trivial⟩

/-- What signing gives. -/
def SignGives (t c : Nat) (m : Mem) (c' : Nat) : Option (Res (Ref × Ref)) → Option (Res (Nat × Nat)) → Prop
  | none, none => True
  | some (.ok q), some (.ok v) => PGives t c m c' (some q) (some v)
  | some (.err e), some (.err e') => e = e'
  | some (.panic e), some (.panic e') => e = e'
  | _, _ => False

theorem sign_wp {t c : Nat} {priv : PrivObj} {k : ECPriv} {m : Mem} {one : Ref} (h : priv.At t c m k)
    (h1 : OneAt t c m one) (E : SM2.Ext) (H : Bytes → Bytes) (fuel : Nat) (rand id msg : Bytes) :
    wp t (sign E H one fuel rand priv id msg) (fun r m' c' => c ≤ c' ∧
      SignGives t c m' c' r (SM2.sign E H fuel rand k id msg) ∧ Same t c m m') m c := by
  unfold sign SM2.sign
  simp only [bind_eq, wp_bind]
  refine wp_mono (getZ_wp h.pub H msg id) fun r m1 c1 hr => ?_
  obtain ⟨rfl, rfl, rfl⟩ := hr
  cases hz : SM2.getZ H msg k.pub id with
  | err e => exact ⟨le_rfl, rfl, Same.refl t _ _⟩
  | panic e => exact ⟨le_rfl, rfl, Same.refl t _ _⟩
  | ok mz =>
    have hc : k.pub.curve = Curves.sm2 := by
      by_contra hne
      rw [SM2.getZ, if_pos hne] at hz
      cases hz
    have hN : 2 ≤ priv.pub.curve.c.N := by
      rw [h.pub.same, hc]
      decide
    dsimp only
    rw [h.pub.same]
    split
    · exact ⟨le_rfl, rfl, Same.refl t c m⟩
    · run
      rw [h.D, Int.toNat_natCast]
      have s1 : ∀ v, Same t c m (m.put ⟨t, c⟩ v) := fun v r hr => by simp [old_put hr]
      refine wp_mono (signLoop_wp (natOfBytes (H mz)) hN E (bytesOfNat k.D) _ (h.pub.curve.mono (by ar) (s1 _))
        (h1.mono (by ar) (s1 _)) (old_new (by ar)) (by simp)) fun r2 m2 c2 h2 => ?_
      obtain ⟨l2, g2, s2⟩ := h2
      rw [h.pub.same] at g2
      refine ⟨by omega, ?_, (s1 _).trans s2 (by ar)⟩
      revert g2
      generalize SM2.signLoop E _ _ _ _ = w
      intro g2
      rcases r2 with _ | r2 <;> rcases w with _ | w <;> try exact g2
      exact PGives.mono (r := some r2) (v := some w) g2 (by ar)

theorem combine_wp {t c : Nat} {pub : PubObj} {k : ECPub} {m : Mem} {s u : Ref} (h : pub.At t c m k) (hs : Old t c s)
    (hu : Old t c u) (E : SM2.Ext) : wp t (combine E pub s u) (fun r m' c' => c ≤ c' ∧
      PGives t c m' c' (some r) (some (SM2.combine E k (m s).toNat (m u).toNat)) ∧ Same t c m m') m c := by
  have oX := old_put h.xy.1
  have oY := old_put h.xy.2.1
  have ou := old_put hu
  have os := old_put hs
  unfold combine SM2.combine
  cases hE : E.combinedMult with
  | some f =>
    dsimp only
    run
    simp only [wp_newPair]
    rw [h.xy.2.2.1, h.xy.2.2.2]
    simp only [Int.toNat_natCast]
    exact ⟨by ar, ⟨⟨rfl, by ar, by ar⟩, ⟨rfl, by ar, by ar⟩, by simp, by simp [put_ne], by simp⟩,
      fun r hr => by simp [old_put hr]⟩
  | none =>
    dsimp only
    run
    simp only [wp_newPair]
    run
    simp (disch := omega) only [put_same, put_ne, oX, oY, ou, wp_newPair, Int.toNat_natCast]
    simp (disch := omega) only [put_same, put_ne, wp_newPair, Int.toNat_natCast, h.xy.2.2.1, h.xy.2.2.2]
    exact ⟨by ar, ⟨⟨rfl, by ar, by ar⟩, ⟨rfl, by ar, by ar⟩, by simp, by simp [put_ne], by simp⟩,
      fun r hr => by simp [old_put hr]⟩

theorem verify_wp {t c : Nat} {pub : PubObj} {k : ECPub} {m : Mem} {r s : Ref} (h : pub.At t c m k) (hr : Old t c r)
    (hs : Old t c s) (E : SM2.Ext) (H : Bytes → Bytes) (id msg : Bytes) : wp t (verify E H pub id msg r s)
      (fun b m' c' => c ≤ c' ∧ b = SM2.verify E H k id msg (m r) (m s) ∧ Same t c m m') m c := by
  unfold verify SM2.verify
  run
  rw [h.curve.N, h.same]
  by_cases h0 : k.curve.N = 0
  · simp only [h0, Nat.cast_zero, if_true]
    exact ⟨le_rfl, rfl, Same.refl t c m⟩
  · have h0' : ¬ ((k.curve.N : Int) = 0) := by omega
    simp only [h0, h0', if_false]
    run
    split
    · exact ⟨le_rfl, rfl, Same.refl t c m⟩
    · rename_i hrange
      unfold verifyTail
      have oN := old_put h.curve.oN
      have or' := old_put hr
      have os := old_put hs
      run
      simp (disch := omega) only [put_same, put_ne, oN, or', os, h.curve.N, h.same]
      split
      · run
        exact ⟨by ar, by ar, fun r hr => by simp [old_put hr]⟩
      · run
        generalize hm : Mem.put _ _ _ = m1
        have s1 : Same t c m m1 := fun r hr => by rw [← hm]; simp [old_put hr]
        have P1 := h.mono (c' := c + 1) (by ar) s1
        have v1 : m1 ⟨t, c⟩ = (m r + m s) % k.curve.N := by rw [← hm]; simp
        refine wp_mono (combine_wp (u := ⟨t, c⟩) P1 (hs.mono (by ar)) (old_new (by ar)) E) fun q m2 c2 h2 => ?_
        obtain ⟨l2, ⟨f2, f2', n2, v2, v2'⟩, s2⟩ := h2
        rw [v1, s1 s hs] at v2 v2'
        generalize SM2.combine E k _ _ = w at *
        rw [v2, v2']
        have e0 : ((w.1 : Int) = 0 ∧ (w.2 : Int) = 0) ↔ (w.1 = 0 ∧ w.2 = 0) := by omega
        have s02 := s1.trans s2 (by ar)
        simp only [e0]
        split
        · run
          exact ⟨by omega, by ar, s02⟩
        · run
          refine wp_mono (getZ_wp (P1.mono l2 s2) H msg id) fun z m3 c3 h3 => ?_
          obtain ⟨rfl, rfl, rfl⟩ := h3
          cases hz : SM2.getZ H msg k id with
          | err e =>
            dsimp only
            run
            exact ⟨by omega, by ar, s02⟩
          | panic e =>
            dsimp only
            run
            exact ⟨by omega, by ar, s02⟩
          | ok mz =>
            dsimp only
            run
            obtain ⟨q1, q2⟩ := q
            obtain ⟨i, j⟩ := q1
            have hi := f2.1
            dsimp only at hi
            subst hi
            have hb := f2.2
            dsimp only at hb v2 n2
            have P2 := P1.mono l2 s2
            have oN2 : pub.curve.N ≠ ⟨i, j⟩ := by
              obtain ⟨d, rfl⟩ := Nat.exists_eq_add_of_le hb.1
              exact P1.curve.oN.ne d
            have or2 : r ≠ ⟨i, j⟩ := by
              obtain ⟨d, rfl⟩ := Nat.exists_eq_add_of_le hb.1
              exact (hr.mono (by ar : c ≤ c + 1)).ne d
            have oN3 := P2.curve.oN.ne0
            have or3 := (hr.mono (by omega : c ≤ c2)).ne0
            have hj : j ≠ c2 := by omega
            simp (disch := omega) only [put_apply, put_same, oN2, or2, oN3, or3, if_true, if_false, Ref.mk.injEq, true_and, hj, v2, P2.curve.N, h.same, s02 r hr]
            refine ⟨by omega, ?_, fun q hq => ?_⟩
            · push_cast
              rfl
            · have a1 : q ≠ ⟨i, j⟩ := by
                obtain ⟨d, rfl⟩ := Nat.exists_eq_add_of_le hb.1
                exact (hq.mono (by ar : c ≤ c + 1)).ne d
              have a2 := (hq.mono (by omega : c ≤ c2)).ne0
              simp only [put_apply, a1, a2, if_false]
              exact s02 q hq

/-! ## Encryption -/

theorem encryptLoop_cons (E : SM2.Ext) (k : ECPub) (data b : Bytes) (bs : List Bytes) (buf : Bytes) :
    SM2.encryptLoop E k data (b :: bs) buf =
      match (SM2.putRight buf 32 (E.ops.baseMult (SM2.randFieldElement k.curve b)).1).bind fun buf =>
        SM2.putRight buf 64 (E.ops.baseMult (SM2.randFieldElement k.curve b)).2 with
      | .err m => some (.err m)
      | .panic m => some (.panic m)
      | .ok buf =>
        if k.x = 0 ∧ k.y = 0 then some (.err "invalid public key")
        else
          match SM2.pointBuf (E.ops.mult (k.x, k.y) (SM2.randFieldElement k.curve b)).1
            (E.ops.mult (k.x, k.y) (SM2.randFieldElement k.curve b)).2 with
          | .err m => some (.err m)
          | .panic m => some (.panic m)
          | .ok x2y2 =>
            match SM2.sm3kdf x2y2 data.length with
            | none => SM2.encryptLoop E k data bs buf
            | some t =>
              some ((SM2.macOf (E.ops.mult (k.x, k.y) (SM2.randFieldElement k.curve b)).1
                (E.ops.mult (k.x, k.y) (SM2.randFieldElement k.curve b)).2 data).bind fun c3 =>
                .ok (SM3.goCopyAt (SM3.goCopyAt buf 64 c3).1 96 (List.zipWith (· ^^^ ·) data t)).1) := by
  rw [SM2.encryptLoop]
  generalize E.ops.mult _ _ = q
  generalize E.ops.baseMult _ = q'
  rfl

/-- sm2/encryption.go:188-214 in the value model. -/
def decTail (q : Nat × Nat) (data : Bytes) : Res SM2.DecOut :=
  match SM2.pointBuf q.1 q.2 with
  | .err m => .err m
  | .panic m => .panic m
  | .ok c2 =>
    match SM2.sm3kdf c2 (data.length - 96) with
    | none => .ok (none, some "KDF calc error")
    | some t =>
      (SM2.macOf q.1 q.2 (List.zipWith (· ^^^ ·) (data.drop 96) t)).bind fun c3 =>
        if c3 ≠ (data.drop 64).take 32 then .ok (some (List.zipWith (· ^^^ ·) (data.drop 96) t), some "Hash not match!")
        else .ok (some (List.zipWith (· ^^^ ·) (data.drop 96) t), none)

theorem decrypt_eq (E : SM2.Ext) (k : ECPriv) (data spare : Bytes) : SM2.decrypt E k data spare =
    if k.pub.curve ≠ Curves.sm2 then .ok (none, some "the curve type is not SM2Curve")
    else if (data ++ spare).length < 64 then .panic "slice bounds out of range"
    else if natOfBytes ((data ++ spare).take 32) = 0 ∧ natOfBytes (((data ++ spare).drop 32).take 32) = 0 then
      .ok (none, some "C1 is infinity")
    else if E.isOnCurve (natOfBytes ((data ++ spare).take 32)) (natOfBytes (((data ++ spare).drop 32).take 32)) = false then
      .ok (none, some "C1 is not on curve")
    else decTail (E.ops.mult (natOfBytes ((data ++ spare).take 32), natOfBytes (((data ++ spare).drop 32).take 32)) k.D)
      data := by
  unfold SM2.decrypt decTail
  lift_lets
  intro buf x1 y1 msgLen
  generalize E.ops.mult _ _ = q
  simp only [buf, x1, y1, msgLen]
  split
  · rfl
  · split
    · rfl
    · split
      · rfl
      · split
        · rfl
        · cases SM2.pointBuf q.1 q.2 <;> rfl

theorem encryptLoop_wp {pub : PubObj} {k : ECPub} {one : Ref} (E : SM2.Ext) (data : Bytes) (hN : 2 ≤ pub.curve.c.N) :
    ∀ (bs : List Bytes) (buf : Bytes) {t c : Nat} {m : Mem}, pub.At t c m k → OneAt t c m one →
    wp t (encryptLoop E pub one data bs buf) (fun r m' c' => c ≤ c' ∧
      r = SM2.encryptLoop E k data bs buf ∧ Same t c m m') m c
  | [], buf, t, c, m, _, _ => ⟨le_rfl, rfl, Same.refl t c m⟩
  | b :: bs, buf, t, c, m, h, h1 => by
    rw [encryptLoop, encryptLoop_cons]
    simp only [bind_eq, wp_bind]
    refine wp_mono (randFieldElement_wp h.curve h1 hN b) fun r m1 c1 hr1 => ?_
    obtain ⟨rfl, rfl, v1, s1⟩ := hr1
    rw [h.same] at v1
    have P1 := h.mono (c' := c + 2) (by ar) s1
    have O1 := h1.mono (c' := c + 2) (by ar) s1
    generalize SM2.randFieldElement k.curve b = kv at *
    run
    simp only [wp_newPair]
    run
    rw [v1, Int.toNat_natCast]
    simp (disch := omega) only [put_same, put_ne, Int.toNat_natCast]
    generalize hm : Mem.put _ _ _ = m2
    have s2 : Same t (c + 2) m1 m2 := fun r hr => by rw [← hm]; simp (disch := omega) [old_put hr]
    have P2 := P1.mono (c' := c + 4) (by ar) s2
    have O2 := O1.mono (c' := c + 4) (by ar) s2
    have s02 := s1.trans s2 (by ar)
    have v2 : m2 ⟨t, c⟩ = kv := (s2 _ (old_new (by ar))).trans v1
    generalize (Res.bind (SM2.putRight buf 32 (E.ops.baseMult kv).1) fun buf => SM2.putRight buf 64 (E.ops.baseMult kv).2) = w
    cases w with
    | err e => exact ⟨by ar, rfl, s02⟩
    | panic e => exact ⟨by ar, rfl, s02⟩
    | ok buf =>
      dsimp only
      run
      rw [P2.xy.2.2.1, P2.xy.2.2.2]
      have e0 : ((k.x : Int) = 0 ∧ (k.y : Int) = 0) ↔ (k.x = 0 ∧ k.y = 0) := by omega
      simp only [e0]
      split
      · exact ⟨by ar, rfl, s02⟩
      · run
        simp only [wp_newPair]
        run
        rw [P2.xy.2.2.1, P2.xy.2.2.2, v2]
        simp (disch := omega) only [put_same, put_ne, Int.toNat_natCast]
        generalize E.ops.mult (k.x, k.y) kv = q
        generalize hm : Mem.put _ _ _ = m3
        have s3 : Same t (c + 4) m2 m3 := fun r hr => by rw [← hm]; simp (disch := omega) [old_put hr]
        have P3 := P2.mono (c' := c + 6) (by ar) s3
        have O3 := O2.mono (c' := c + 6) (by ar) s3
        have s03 := s02.trans s3 (by ar)
        have w1 : m3 ⟨t, c + 4⟩ = q.1 := by rw [← hm]; simp (disch := omega) only [put_same, put_ne]
        have w2 : m3 ⟨t, c + 5⟩ = q.2 := by rw [← hm]; simp (disch := omega) only [put_same, put_ne]
        generalize SM2.pointBuf q.1 q.2 = w
        cases w with
        | err e => exact ⟨by ar, rfl, s03⟩
        | panic e => exact ⟨by ar, rfl, s03⟩
        | ok x2y2 =>
          dsimp only
          cases SM2.sm3kdf x2y2 data.length with
          | none =>
            dsimp only
            refine wp_mono (encryptLoop_wp E data hN bs buf P3 O3) fun r m4 c4 h4 => ?_
            obtain ⟨l4, e4, s4⟩ := h4
            exact ⟨by omega, e4, s03.trans s4 (by ar)⟩
          | some tt =>
            dsimp only
            run
            rw [w1, w2]
            exact ⟨by ar, rfl, s03⟩

theorem encrypt_wp {t c : Nat} {m : Mem} {pub : PubObj} {k : ECPub} {one : Ref} (h : pub.At t c m k) (h1 : OneAt t c m one)
    (E : SM2.Ext) (fuel : Nat) (rand data : Bytes) : wp t (encrypt E one fuel rand pub data) (fun r m' c' => c ≤ c' ∧
      r = SM2.encrypt E fuel rand k data ∧ Same t c m m') m c := by
  unfold encrypt SM2.encrypt
  rw [h.same]
  split
  · exact ⟨le_rfl, rfl, Same.refl t c m⟩
  · rename_i hc
    dsimp only
    split
    · exact ⟨le_rfl, rfl, Same.refl t c m⟩
    · have hN : 2 ≤ pub.curve.c.N := by
        rw [h.same, not_not.mp hc]
        decide
      run
      rw [h.xy.2.2.1, Int.toNat_natCast]
      exact encryptLoop_wp E data hN _ _ h h1

theorem decrypt_wp {t c : Nat} {m : Mem} {priv : PrivObj} {k : ECPriv} (h : priv.At t c m k) (E : SM2.Ext)
    (data spare : Bytes) : wp t (decrypt E priv data spare) (fun r m' c' => c ≤ c' ∧
      r = SM2.decrypt E k data spare ∧ Same t c m m') m c := by
  unfold decrypt
  rw [decrypt_eq, h.pub.same]
  split
  · exact ⟨le_rfl, rfl, Same.refl t c m⟩
  · split
    · exact ⟨le_rfl, rfl, Same.refl t c m⟩
    · run
      simp (disch := omega) only [put_same, put_ne, Int.toNat_natCast]
      generalize natOfBytes ((data ++ spare).take 32) = x1
      generalize natOfBytes (((data ++ spare).drop 32).take 32) = y1
      generalize hm : Mem.put _ _ _ = m1
      have s1 : Same t c m m1 := fun r hr => by rw [← hm]; simp (disch := omega) [old_put hr]
      have w1 : m1 ⟨t, c⟩ = x1 := by rw [← hm]; simp (disch := omega) only [put_same, put_ne]
      have w2 : m1 ⟨t, c + 1⟩ = y1 := by rw [← hm]; simp (disch := omega) only [put_same, put_ne]
      have e0 : ((x1 : Int) = 0 ∧ (y1 : Int) = 0) ↔ (x1 = 0 ∧ y1 = 0) := by omega
      simp only [e0]
      split
      · exact ⟨by ar, rfl, s1⟩
      · split
        · exact ⟨by ar, rfl, s1⟩
        · unfold decryptTail
          run
          simp only [wp_newPair]
          run
          rw [w1, w2, (s1 _ h.oD).trans h.D]
          simp (disch := omega) only [put_same, put_ne, Int.toNat_natCast]
          generalize E.ops.mult (x1, y1) k.D = q
          generalize hm : Mem.put _ _ _ = m3
          have s3 : Same t (c + 2) m1 m3 := fun r hr => by rw [← hm]; simp (disch := omega) [old_put hr]
          have s03 := s1.trans s3 (by ar)
          have w1 : m3 ⟨t, c + 2⟩ = q.1 := by rw [← hm]; simp (disch := omega) only [put_same, put_ne]
          have w2 : m3 ⟨t, c + 3⟩ = q.2 := by rw [← hm]; simp (disch := omega) only [put_same, put_ne]
          unfold decTail
          generalize SM2.pointBuf q.1 q.2 = w
          cases w with
          | err e => exact ⟨by ar, rfl, s03⟩
          | panic e => exact ⟨by ar, rfl, s03⟩
          | ok c2 =>
            dsimp only
            cases SM2.sm3kdf c2 (data.length - 96) with
            | none => exact ⟨by ar, rfl, s03⟩
            | some tt =>
              dsimp only
              run
              rw [w1, w2]
              exact ⟨by ar, rfl, s03⟩

/-! ## VRF -/

theorem hashToInt_wp {o : CurveObj} {one : Ref} (E : VRF.Ext) (a : Signature.HashAlg) (msg : Bytes) (hN : 1 ≤ o.c.N) :
    ∀ (fuel i : Nat) {t c : Nat} {m : Mem}, o.At t c m → OneAt t c m one →
    wp t (hashToIntFrom E a o one msg fuel i) (fun r m' c' => c ≤ c' ∧
      Gives t c m' c' r ((VRF.hashToIntFrom E a o.c msg fuel i).map fun n : Nat => (n : Int)) ∧ Same t c m m') m c
  | 0, i, t, c, m, _, _ => ⟨le_rfl, trivial, Same.refl t c m⟩
  | fuel + 1, i, t, c, m, h, h1 => by
    have oN := old_put h.oN
    have o1 := old_put h1.1
    rw [hashToIntFrom, VRF.hashToIntFrom]
    run
    simp (disch := omega) only [put_same, put_ne, oN, o1, h.N, h1.2]
    generalize natOfBytes _ = k
    have e : (k : Int) < (o.c.N : Int) - 1 ↔ k < o.c.N - 1 := by omega
    simp only [e]
    split
    · run
      simp (disch := omega) only [put_same, put_ne, oN, o1, h.N, h1.2]
      exact ⟨by ar, ⟨⟨rfl, by ar, by ar⟩, by simp⟩, fun r hr => by simp [old_put hr]⟩
    · generalize hm : Mem.put _ _ _ = m1
      have s1 : Same t c m m1 := fun r hr => by rw [← hm]; simp [old_put hr]
      refine wp_mono (hashToInt_wp E a msg hN fuel (i + 1) (h.mono (c' := c + 2) (by ar) s1) (h1.mono (by ar) s1))
        fun r m2 c2 h2 => ?_
      obtain ⟨l2, g2, s2⟩ := h2
      refine ⟨by omega, ?_, s1.trans s2 (by ar)⟩
      have := Gives'.mono (r := some r) (v := some _) g2 (by ar : c ≤ c + 2)
      exact this

theorem marshal_wp {t c : Nat} {m : Mem} {q : Ref × Ref} {v : Nat × Nat} (o : CurveObj) (h : PairAt t c m q v) :
    wp t (marshal o q) (fun r m' c' => r = VRF.marshal o.c v ∧ m = m' ∧ c = c') m c := by
  unfold marshal
  run
  rw [h.2.2.1, h.2.2.2]
  exact ⟨by ar, by ar, by ar⟩

theorem marshalAll_wp {t c : Nat} {m : Mem} (o : CurveObj) : ∀ (qs : List (Ref × Ref)) (vs : List (Nat × Nat)),
    List.Forall₂ (PairAt t c m) qs vs →
    wp t (marshalAll o qs) (fun r m' c' => r = VRF.marshalAll o.c vs ∧ m = m' ∧ c = c') m c
  | _, _, .nil => ⟨rfl, rfl, rfl⟩
  | _, _, .cons (a := q) (b := v) (l₁ := qs) (l₂ := vs) h hs => by
    rw [marshalAll, VRF.marshalAll]
    run
    refine wp_mono (marshal_wp o h) fun r m1 c1 h1 => ?_
    obtain ⟨rfl, rfl, rfl⟩ := h1
    refine wp_mono (marshalAll_wp o qs vs hs) fun r m1 c1 h1 => ?_
    obtain ⟨rfl, rfl, rfl⟩ := h1
    exact ⟨rfl, rfl, rfl⟩

theorem challengeInput_wp {t c : Nat} {m : Mem} {pub : PubObj} {k : ECPub} (h : pub.At t c m k) {H A B : Ref × Ref}
    {Hv Av Bv : Nat × Nat} (hH : PairAt t c m H Hv) (hA : PairAt t c m A Av) (hB : PairAt t c m B Bv) (vrf : Bytes) :
    wp t (challengeInput pub H vrf A B) (fun r m' c' => r = VRF.challengeInput k.curve Hv (k.x, k.y) vrf Av Bv ∧
      m = m' ∧ c = c') m c := by
  unfold challengeInput VRF.challengeInput
  have hG : PairAt t c m (pub.curve.Gx, pub.curve.Gy) (k.curve.Gx, k.curve.Gy) := by
    have := h.curve
    rw [← h.same]
    exact ⟨this.oGx, this.oGy, this.Gx, this.Gy⟩
  run
  refine wp_mono (marshalAll_wp pub.curve _ _ (.cons hG (.cons hH (.cons h.xy .nil)))) fun r m1 c1 h1 => ?_
  obtain ⟨rfl, rfl, rfl⟩ := h1
  refine wp_mono (marshalAll_wp pub.curve _ _ (.cons hA (.cons hB .nil))) fun r m1 c1 h1 => ?_
  obtain ⟨rfl, rfl, rfl⟩ := h1
  rw [h.same]
  exact ⟨rfl, rfl, rfl⟩

theorem mult_wp {t c : Nat} {m : Mem} {q : Ref × Ref} {v : Nat × Nat} (E : VRF.Ext) (o : CurveObj) (h : PairAt t c m q v)
    (k : Nat) : wp t (mult E o q k) (fun r m' c' => c' = c + 2 ∧ PairAt t c' m' r ((E.ops o.c).mult v k) ∧ Same t c m m')
      m c := by
  unfold mult
  run
  rw [h.2.2.1, h.2.2.2]
  simp only [wp_newPair]
  exact ⟨by ar, ⟨old_new (by ar), old_new (by ar), by simp [put_ne], by simp⟩, fun r hr => by simp [old_put hr]⟩

theorem addPoints_wp {t c : Nat} {m : Mem} {p q : Ref × Ref} {u v : Nat × Nat} (E : VRF.Ext) (o : CurveObj)
    (h : PairAt t c m p u) (h' : PairAt t c m q v) : wp t (addPoints E o p q) (fun r m' c' => c' = c + 2 ∧
      PairAt t c' m' r ((E.ops o.c).add u v) ∧ Same t c m m') m c := by
  unfold addPoints
  run
  rw [h.2.2.1, h.2.2.2, h'.2.2.1, h'.2.2.2]
  simp only [wp_newPair]
  exact ⟨by ar, ⟨old_new (by ar), old_new (by ar), by simp [put_ne], by simp⟩, fun r hr => by simp [old_put hr]⟩

theorem newPair_wp (t c : Nat) (m : Mem) (v : Nat × Nat) : wp t (newPair v) (fun r m' c' => c' = c + 2 ∧
      PairAt t c' m' r v ∧ Same t c m m') m c := by
  simp only [wp_newPair]
  exact ⟨by ar, ⟨old_new (by ar), old_new (by ar), by simp [put_ne], by simp⟩, fun r hr => by simp [old_put hr]⟩

/-- What hashing to the curve gives. -/
def HGives (t : Nat) (m : Mem) (c' : Nat) : Option (Option (Ref × Ref)) → Option (Option (Nat × Nat)) → Prop
  | none, none => True
  | some none, some none => True
  | some (some q), some (some v) => PairAt t c' m q v
  | _, _ => False

theorem hashToCurve_wp {o : CurveObj} (E : VRF.Ext) (a : Signature.HashAlg) (msg : Bytes) (draws : Nat → List Nat)
    (h0 : 0 < o.c.P) : ∀ (n i : Nat) {t c : Nat} {m : Mem}, o.At t c m →
    wp t (hashToCurveFrom E a o msg draws n i) (fun r m' c' => c ≤ c' ∧
      HGives t m' c' r (VRF.hashToCurveFrom E a o.c msg draws n i) ∧ Same t c m m') m c
  | 0, i, t, c, m, _ => ⟨le_rfl, trivial, Same.refl t c m⟩
  | n + 1, i, t, c, m, h => by
    rw [hashToCurveFrom, VRF.hashToCurveFrom]
    run
    refine wp_mono (decode_wp (o := some o) (fun o' e => by cases e; exact ⟨h, h0⟩) E.k1name _ (draws i))
      fun r m1 c1 h1 => ?_
    obtain ⟨l1, g1, s1⟩ := h1
    dsimp only [Option.map_some] at g1 ⊢
    revert g1
    generalize EC.decodePublicKey E.k1name _ (some o.c) (draws i) = w
    intro g1
    have next : wp t (hashToCurveFrom E a o msg draws n (i + 1)) (fun r m' c' => c ≤ c' ∧
        HGives t m' c' r (VRF.hashToCurveFrom E a o.c msg draws n (i + 1)) ∧ Same t c m m') m1 c1 := by
      refine wp_mono (hashToCurve_wp E a msg draws h0 n (i + 1) (h.mono l1 s1)) fun r m2 c2 h2 => ?_
      exact ⟨l1.trans h2.1, h2.2.1, s1.trans h2.2.2 l1⟩
    rcases r with _ | r | r | r <;> rcases w with _ | w | w | w <;> try exact g1.elim
    · exact ⟨l1, trivial, s1⟩
    · obtain ⟨o', ho, g⟩ := g1
      exact ⟨l1, ⟨g.X.old, g.Y.old, g.x, g.y⟩, s1⟩
    · exact next
    · exact next

theorem evalTail_wp {t c : Nat} {m : Mem} {priv : PrivObj} {k : ECPriv} {one ri : Ref} (h : priv.At t c m k)
    (h1 : OneAt t c m one) (hri : Old t c ri) (rv : Nat) (erv : m ri = rv) (hN : 1 ≤ k.pub.curve.N) (E : VRF.Ext)
    (a : Signature.HashAlg) (vrf b : Bytes) (fuel : Nat) : wp t (evalTail E a priv one ri vrf b fuel)
      (fun r m' c' => c ≤ c' ∧ r = VRF.evalTail E a k.pub.curve k.D rv vrf b fuel ∧ Same t c m m') m c := by
  have hN' : 1 ≤ priv.pub.curve.c.N := by rw [h.pub.same]; exact hN
  unfold evalTail VRF.evalTail VRF.hashToInt
  run
  refine wp_mono (hashToInt_wp E a b hN' fuel 0 h.pub.curve h1) fun r m1 c1 hr1 => ?_
  obtain ⟨l1, g1, s1⟩ := hr1
  rw [h.pub.same] at g1
  revert g1
  generalize VRF.hashToIntFrom E a k.pub.curve b fuel 0 = w
  intro g1
  rcases r with _ | r <;> rcases w with _ | w <;> try exact g1.elim
  · exact ⟨l1, rfl, s1⟩
  · obtain ⟨f1, v1⟩ := g1
    have P1 := h.mono l1 s1
    have oD := old_put P1.oD
    have oN := old_put P1.pub.curve.oN
    have or' := old_put f1.old
    have ori := old_put (hri.mono l1)
    dsimp only
    run
    simp (disch := omega) only [put_same, put_ne, oD, oN, or', ori, P1.D, P1.pub.curve.N, v1, (s1 ri hri).trans erv, h.pub.same]
    refine ⟨by omega, rfl, fun q hq => ?_⟩
    have oq := old_put (hq.mono l1)
    simp (disch := omega) only [oq]
    exact s1 q hq

theorem evalWith_wp {t c : Nat} {m : Mem} {priv : PrivObj} {k : ECPriv} {one ri : Ref} (h : priv.At t c m k)
    (h1 : OneAt t c m one) (hri : Old t c ri) (rv : Nat) (erv : m ri = rv) (hN : 1 ≤ k.pub.curve.N) (E : VRF.Ext)
    (a : Signature.HashAlg) {H : Ref × Ref} {Hv : Nat × Nat} (hH : PairAt t c m H Hv) (fuel : Nat) :
    wp t (evalWith E a priv one ri rv H fuel)
      (fun r m' c' => c ≤ c' ∧ r = VRF.evalWith E a k rv (some Hv) fuel ∧ Same t c m m') m c := by
  unfold evalWith VRF.evalWith
  run
  rw [h.D, Int.toNat_natCast, h.pub.same]
  refine wp_mono (mult_wp E priv.pub.curve hH k.D) fun r1 m1 c1 g1 => ?_
  obtain ⟨rfl, p1, s1⟩ := g1
  refine wp_mono (marshal_wp priv.pub.curve p1) fun r2 m2 c2 g2 => ?_
  obtain ⟨rfl, rfl, rfl⟩ := g2
  rw [h.pub.same]
  cases VRF.marshal k.pub.curve ((E.ops k.pub.curve).mult Hv k.D) with
  | err e => exact ⟨by ar, rfl, s1⟩
  | panic e => exact ⟨by ar, rfl, s1⟩
  | ok vrf =>
    dsimp only
    run
    refine wp_mono (newPair_wp t (c + 2) m1 _) fun r3 m3 c3 g3 => ?_
    obtain ⟨rfl, p3, s3⟩ := g3
    have s03 := s1.trans s3 (by ar)
    have H3 := hH.mono (c' := c + 2 + 2) (by ar) s03
    refine wp_mono (mult_wp E priv.pub.curve H3 rv) fun r4 m4 c4 g4 => ?_
    obtain ⟨rfl, p4, s4⟩ := g4
    have s04 := s03.trans s4 (by ar)
    have K4 := h.mono (c' := c + 2 + 2 + 2) (by ar) s04
    refine wp_mono (challengeInput_wp K4.pub (hH.mono (by ar) s04) (p3.mono (by ar) s4) p4 vrf) fun r5 m5 c5 g5 => ?_
    obtain ⟨rfl, rfl, rfl⟩ := g5
    rw [h.pub.same]
    cases VRF.challengeInput k.pub.curve Hv (k.pub.x, k.pub.y) vrf ((E.ops k.pub.curve).baseMult rv)
        ((E.ops k.pub.curve).mult Hv rv) with
    | err e => exact ⟨by ar, rfl, s04⟩
    | panic e => exact ⟨by ar, rfl, s04⟩
    | ok b =>
      dsimp only
      refine wp_mono (evalTail_wp K4 (h1.mono (by ar) s04) (hri.mono (by ar)) rv ((s04 ri hri).trans erv) hN E a vrf b fuel)
        fun r6 m6 c6 g6 => ?_
      exact ⟨by omega, g6.2.1, s04.trans g6.2.2 (by ar)⟩

theorem evaluate_wp {t c : Nat} {m : Mem} {priv : PrivObj} {k : ECPriv} {one : Ref} (h : priv.At t c m k)
    (h1 : OneAt t c m one) (hN : 1 ≤ k.pub.curve.N) (hP : 0 < k.pub.curve.P) (E : VRF.Ext) (a : Signature.HashAlg)
    (msg : Bytes) (nonce : Res Bytes) (draws : Nat → List Nat) (fuel : Nat) :
    wp t (evaluate E a priv one msg nonce draws fuel)
      (fun r m' c' => c ≤ c' ∧ r = VRF.evaluate E a k msg nonce draws fuel ∧ Same t c m m') m c := by
  unfold evaluate VRF.evaluate
  dsimp only
  rw [h.pub.same]
  split
  · exact ⟨le_rfl, rfl, Same.refl t c m⟩
  · cases nonce with
    | err e => exact ⟨le_rfl, rfl, Same.refl t c m⟩
    | panic e => exact ⟨le_rfl, rfl, Same.refl t c m⟩
    | ok r =>
      dsimp only
      run
      have s1 : Same t c m (m.put ⟨t, c⟩ (natOfBytes r)) := fun q hq => by simp [old_put hq]
      have v1 : (m.put ⟨t, c⟩ (natOfBytes r)) ⟨t, c⟩ = natOfBytes r := by simp
      generalize m.put ⟨t, c⟩ (natOfBytes r) = m1 at *
      have K1 := h.mono (c' := c + 1) (by ar) s1
      refine wp_mono (marshal_wp priv.pub.curve K1.pub.xy) fun r2 m2 c2 g2 => ?_
      obtain ⟨rfl, rfl, rfl⟩ := g2
      rw [h.pub.same]
      cases VRF.marshal k.pub.curve (k.pub.x, k.pub.y) with
      | err e => exact ⟨by ar, rfl, s1⟩
      | panic e => exact ⟨by ar, rfl, s1⟩
      | ok pkb =>
        dsimp only
        run
        refine wp_mono (hashToCurve_wp E a (pkb ++ msg) draws (by rw [h.pub.same]; exact hP) 100 0 K1.pub.curve)
          fun r3 m3 c3 g3 => ?_
        obtain ⟨l3, g3, s3⟩ := g3
        rw [h.pub.same] at g3
        unfold VRF.hashToCurve
        revert g3
        generalize VRF.hashToCurveFrom E a k.pub.curve (pkb ++ msg) draws 100 0 = w
        intro g3
        have s03 := s1.trans s3 (by ar)
        rcases r3 with _ | _ | r3 <;> rcases w with _ | _ | w <;> try exact g3.elim
        · exact ⟨by ar, rfl, s03⟩
        · exact ⟨by ar, rfl, s03⟩
        · dsimp only
          refine wp_mono (evalWith_wp (K1.mono l3 s3) (h1.mono (by omega) s03) (old_new (by omega)) (natOfBytes r)
            ((s3 _ (old_new (by omega))).trans v1) hN E a g3 fuel) fun r4 m4 c4 g4 => ?_
          exact ⟨by omega, g4.2.1, s03.trans g4.2.2 (by omega)⟩

theorem checkWith_wp {t c : Nat} {m : Mem} {pk : PubObj} {k : ECPub} {one : Ref} (h : pk.At t c m k)
    (h1 : OneAt t c m one) (hN : 1 ≤ k.curve.N) (E : VRF.Ext) (a : Signature.HashAlg) (sb tb vrf : Bytes)
    {U H : Ref × Ref} {Uv Hv : Nat × Nat} (hU : PairAt t c m U Uv) (hH : PairAt t c m H Hv) (fuel : Nat) :
    wp t (checkWith E a pk one sb tb vrf U H fuel)
      (fun r m' c' => c ≤ c' ∧ r = VRF.checkWith E a k sb tb vrf Uv (some Hv) fuel ∧ Same t c m m') m c := by
  unfold checkWith VRF.checkWith
  run
  rw [h.same]
  refine wp_mono (newPair_wp t c m _) fun r1 m1 c1 g1 => ?_
  obtain ⟨rfl, p1, s1⟩ := g1
  refine wp_mono (mult_wp E pk.curve (h.mono (c' := c + 2) (by ar) s1).xy _) fun r2 m2 c2 g2 => ?_
  obtain ⟨rfl, p2, s2⟩ := g2
  have s02 := s1.trans s2 (by ar)
  refine wp_mono (addPoints_wp E pk.curve (p1.mono (by ar) s2) p2) fun r3 m3 c3 g3 => ?_
  obtain ⟨rfl, p3, s3⟩ := g3
  have s03 := s02.trans s3 (by ar)
  refine wp_mono (mult_wp E pk.curve (hH.mono (by ar) s03) _) fun r4 m4 c4 g4 => ?_
  obtain ⟨rfl, p4, s4⟩ := g4
  have s04 := s03.trans s4 (by ar)
  refine wp_mono (mult_wp E pk.curve (hU.mono (by ar) s04) _) fun r5 m5 c5 g5 => ?_
  obtain ⟨rfl, p5, s5⟩ := g5
  have s05 := s04.trans s5 (by ar)
  refine wp_mono (addPoints_wp E pk.curve (p4.mono (by ar) s5) p5) fun r6 m6 c6 g6 => ?_
  obtain ⟨rfl, p6, s6⟩ := g6
  have s06 := s05.trans s6 (by ar)
  have K6 := h.mono (c' := c + 2 + 2 + 2 + 2 + 2 + 2) (by ar) s06
  have p3' := ((p3.mono (c' := c + 2 + 2 + 2 + 2) (by ar) s4).mono (c' := c + 2 + 2 + 2 + 2 + 2) (by ar) s5).mono
    (c' := c + 2 + 2 + 2 + 2 + 2 + 2) (by ar) s6
  refine wp_mono (challengeInput_wp K6 (hH.mono (by ar) s06) p3' p6 vrf) fun r7 m7 c7 g7 => ?_
  obtain ⟨rfl, rfl, rfl⟩ := g7
  rw [h.same]
  generalize VRF.challengeInput _ _ _ _ _ _ = w
  cases w with
  | err e => exact ⟨by ar, rfl, s06⟩
  | panic e => exact ⟨by ar, rfl, s06⟩
  | ok b =>
    dsimp only
    run
    have hN' : 1 ≤ pk.curve.c.N := by rw [h.same]; exact hN
    refine wp_mono (hashToInt_wp E a b hN' fuel 0 K6.curve (h1.mono (by ar) s06)) fun r m8 c8 g8 => ?_
    obtain ⟨l8, g8, s8⟩ := g8
    rw [h.same] at g8
    unfold VRF.checkTail VRF.hashToInt
    revert g8
    generalize VRF.hashToIntFrom E a k.curve b fuel 0 = w
    intro g8
    have s08 := s06.trans s8 (by ar)
    rcases r with _ | r <;> rcases w with _ | w <;> try exact g8.elim
    · exact ⟨by ar, rfl, s08⟩
    · dsimp only
      run
      rw [g8.2]
      exact ⟨by omega, rfl, s08⟩

theorem proofToHash_wp {t c : Nat} {m : Mem} {pk : PubObj} {k : ECPub} {one : Ref} (h : pk.At t c m k)
    (h1 : OneAt t c m one) (hN : 1 ≤ k.curve.N) (hP : 0 < k.curve.P) (E : VRF.Ext) (a : Signature.HashAlg)
    (msg proof : Bytes) (draws : Nat → List Nat) (fuel : Nat) :
    wp t (proofToHash E a pk one msg proof draws fuel)
      (fun r m' c' => c ≤ c' ∧ r = VRF.proofToHash E a k msg proof draws fuel ∧ Same t c m m') m c := by
  unfold proofToHash VRF.proofToHash
  dsimp only
  rw [h.same]
  split
  · exact ⟨le_rfl, rfl, Same.refl t c m⟩
  · split
    · exact ⟨le_rfl, rfl, Same.refl t c m⟩
    · cases VRF.unmarshal E k.curve _ with
      | none => exact ⟨le_rfl, rfl, Same.refl t c m⟩
      | some U =>
        dsimp only
        run
        refine wp_mono (newPair_wp t c m U) fun U' m1 c1 g1 => ?_
        obtain ⟨rfl, p1, s1⟩ := g1
        have K1 := h.mono (c' := c + 2) (by ar) s1
        refine wp_mono (marshal_wp pk.curve K1.xy) fun r2 m2 c2 g2 => ?_
        obtain ⟨rfl, rfl, rfl⟩ := g2
        rw [h.same]
        cases VRF.marshal k.curve (k.x, k.y) with
        | err e => exact ⟨by ar, rfl, s1⟩
        | panic e => exact ⟨by ar, rfl, s1⟩
        | ok pkb =>
          dsimp only
          run
          refine wp_mono (hashToCurve_wp E a (pkb ++ msg) draws (by rw [h.same]; exact hP) 100 0 K1.curve)
            fun r3 m3 c3 g3 => ?_
          obtain ⟨l3, g3, s3⟩ := g3
          rw [h.same] at g3
          unfold VRF.hashToCurve
          revert g3
          generalize VRF.hashToCurveFrom E a k.curve (pkb ++ msg) draws 100 0 = w
          intro g3
          have s03 := s1.trans s3 (by ar)
          rcases r3 with _ | _ | r3 <;> rcases w with _ | _ | w <;> try exact g3.elim
          · exact ⟨by ar, rfl, s03⟩
          · exact ⟨by ar, rfl, s03⟩
          · dsimp only
            refine wp_mono (checkWith_wp (K1.mono l3 s3) (h1.mono (by omega) s03) hN E a _ _ _ (p1.mono l3 s3) g3 fuel)
              fun r4 m4 c4 g4 => ?_
            exact ⟨by omega, g4.2.1, s03.trans g4.2.2 (by omega)⟩

end Verif.Big
