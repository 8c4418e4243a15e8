/-
An information flow analysis of the amd64 code, and its soundness: if the analysis accepts a piece of
code, the addresses it accesses depend on the public inputs only.
-/
import Verif.Spec.Leak

namespace Verif.Leak

open Verif.X64 Verif.Spec.Leak

/-- The number of a register. -/
def regNo : Reg → Nat
  | .ax => 0 | .bx => 1 | .cx => 2 | .dx => 3 | .si => 4 | .di => 5 | .bp => 6 | .r8 => 7 | .r9 => 8
  | .r10 => 9 | .r11 => 10 | .r12 => 11 | .r13 => 12 | .r14 => 13 | .r15 => 14

/-- The value of a place: a register, the zero flag (15), or a cell of the frame (16 and up). -/
def look (s : St) : Nat → X64.W
  | 0 => s.ax | 1 => s.bx | 2 => s.cx | 3 => s.dx | 4 => s.si | 5 => s.di | 6 => s.bp | 7 => s.r8
  | 8 => s.r9 | 9 => s.r10 | 10 => s.r11 | 11 => s.r12 | 12 => s.r13 | 13 => s.r14 | 14 => s.r15
  | 15 => if s.zf then 1 else 0
  | n + 16 => s.stk n

theorem look_reg (s : St) (a : Reg) : look s (regNo a) = s.reg a := by cases a <;> rfl

/-- The place of an operand. -/
def place : Opd → Option Nat
  | .r a => some (regNo a)
  | .s off => some (off + 16)
  | _ => none

/-- The places in `A` and the arguments in `args` have the same values in both states. -/
def Agree (args A : List Nat) (s t : St) : Prop :=
  (∀ n ∈ A, look s n = look t n) ∧ ∀ i ∈ args, s.arg i = t.arg i

/-- The operand is known to be the same in both states. -/
def known (args A : List Nat) : Opd → Bool
  | .r a => A.contains (regNo a)
  | .i _ => true
  | .m _ _ => false
  | .s off => A.contains (off + 16)
  | .a off => args.contains off
  | .g _ _ => true

/-- The address of the operand is known to be the same in both states. -/
def safe (A : List Nat) : Opd → Bool
  | .m a _ => A.contains (regNo a)
  | _ => true

/-- Forget a place. -/
def forget (A : List Nat) (o : Opd) : List Nat :=
  match place o with
  | some n => A.filter (fun m => !(m == n))
  | none => A

/-- Forget the zero flag. -/
def forgetZ (A : List Nat) : List Nat := A.filter (fun m => !(m == 15))

/-- The place is public if `b`. -/
def assign (A : List Nat) (o : Opd) (b : Bool) : List Nat :=
  match b, place o with
  | true, some n => n :: forget A o
  | _, _ => forget A o

/-- The public places after an instruction. -/
def flow (args A : List Nat) : Instr → List Nat
  | .mov a d => assign A d (known args A a)
  | .movl a d => assign A d (known args A a)
  | .add a d => assign (forgetZ A) d (known args A a && known args A d)
  | .adc _ d | .sub _ d | .sbb _ d | .xor _ d | .and _ d | .shl _ d | .shr _ d | .shrd _ _ d =>
    forget (forgetZ A) d
  | .test _ _ => forgetZ A
  | .mul _ => forget (forget A (.r .ax)) (.r .dx)
  | .dec d =>
    if known args A d then 15 :: assign (forgetZ A) d true else forget (forgetZ A) d
  | .bswap d => forget A d
  | .cmov _ _ d => forget A d
  | .stx _ d => forget (forget A d) d.next
  | _ => A

/-- The code accesses addresses that are the same in both states; the public places after it. -/
def check (args : List Nat) : List Instr → List Nat → Option (List Nat)
  | [], A => some A
  | i :: rest, A => if (operands i).all (safe A) then check args rest (flow args A i) else none

theorem look_put_ne (s : St) (o : Opd) (v : X64.W) (n : Nat) (h : place o ≠ some n) :
    look (s.put o v) n = look s n := by
  cases o with
  | r a =>
    have h' : n ≠ regNo a := fun e => h (by rw [e]; rfl)
    cases a <;> (unfold look; split <;> first | rfl | exact absurd rfl h')
  | s off =>
    unfold look
    split
    all_goals first | rfl | skip
    rename_i m
    have h' : m ≠ off := fun e => h (by rw [e]; rfl)
    simp [St.put, upd, h']
  | _ => rfl

theorem look_put_eq (s : St) (o : Opd) (v : X64.W) (n : Nat) (h : place o = some n) :
    look (s.put o v) n = v := by
  cases o with
  | r a =>
    rw [show n = regNo a from (Option.some.inj h).symm]
    cases a <;> rfl
  | s off =>
    rw [show n = off + 16 from (Option.some.inj h).symm]
    change upd s.stk off v off = v
    simp [upd]
  | _ => simp [place] at h

theorem put_arg (s : St) (o : Opd) (v : X64.W) : (s.put o v).arg = s.arg := by
  cases o with
  | r a => cases a <;> rfl
  | _ => rfl

theorem look_flags (s : St) (c z : Bool) (n : Nat) (h : n ≠ 15) : look (s.flags c z) n = look s n := by
  unfold look
  split <;> first | rfl | exact absurd rfl h

variable {args A : List Nat} {s t : St}

theorem mem_forget {o : Opd} {n : Nat} : n ∈ forget A o ↔ n ∈ A ∧ place o ≠ some n := by
  unfold forget
  split
  next m h =>
    rw [List.mem_filter, h]
    constructor
    · rintro ⟨h1, h2⟩
      refine ⟨h1, fun e => ?_⟩
      cases e
      simp at h2
    · rintro ⟨h1, h2⟩
      refine ⟨h1, ?_⟩
      rw [Bool.not_eq_true', beq_eq_false_iff_ne]
      exact fun e => h2 (by rw [e])
  next h => simp [h]

theorem mem_forgetZ {n : Nat} : n ∈ forgetZ A ↔ n ∈ A ∧ n ≠ 15 := by simp [forgetZ]

theorem agree_forget (h : Agree args A s t) (o : Opd) (v w : X64.W) :
    Agree args (forget A o) (s.put o v) (t.put o w) := by
  refine ⟨fun n hn => ?_, fun i hi => by rw [put_arg, put_arg]; exact h.2 i hi⟩
  rw [mem_forget] at hn
  rw [look_put_ne _ _ _ _ hn.2, look_put_ne _ _ _ _ hn.2]
  exact h.1 n hn.1

theorem agree_assign (h : Agree args A s t) (o : Opd) (b : Bool) (v w : X64.W) (hv : b = true → v = w) :
    Agree args (assign A o b) (s.put o v) (t.put o w) := by
  have hf := agree_forget h o v w
  unfold assign
  split
  next n hp =>
    refine ⟨fun m hm => ?_, hf.2⟩
    rcases List.mem_cons.1 hm with rfl | hm
    · rw [look_put_eq _ _ _ _ hp, look_put_eq _ _ _ _ hp]
      exact hv rfl
    · exact hf.1 m hm
  next => exact hf

theorem agree_flags (h : Agree args A s t) (c z c' z' : Bool) :
    Agree args (forgetZ A) (s.flags c z) (t.flags c' z') := by
  refine ⟨fun n hn => ?_, h.2⟩
  rw [mem_forgetZ] at hn
  rw [look_flags _ _ _ _ hn.2, look_flags _ _ _ _ hn.2]
  exact h.1 n hn.1

theorem agree_get (h : Agree args A s t) {o : Opd} (ho : known args A o = true) : s.get o = t.get o := by
  cases o with
  | r a =>
    have := h.1 (regNo a) (by simpa [known] using ho)
    rwa [look_reg, look_reg] at this
  | i n => rfl
  | m a off => simp [known] at ho
  | s off => exact h.1 (off + 16) (by simpa [known] using ho)
  | a off => exact h.2 off (by simpa [known] using ho)
  | g a off => rfl

theorem agree_address (h : Agree args A s t) {o : Opd} (ho : safe A o = true) :
    address s o = address t o := by
  cases o with
  | m a off =>
    have := h.1 (regNo a) (by simpa [safe] using ho)
    rw [look_reg, look_reg] at this
    simp only [address, this]
  | _ => rfl

theorem agree_accesses (h : Agree args A s t) {i : Instr} (hi : (operands i).all (safe A) = true) :
    accesses s i = accesses t i := by
  unfold accesses
  generalize operands i = l at *
  induction l with
  | nil => rfl
  | cons o rest ih =>
    rw [List.all_cons, Bool.and_eq_true] at hi
    rw [List.flatMap_cons, List.flatMap_cons, agree_address h hi.1, ih hi.2]

theorem agree_setx (h : Agree args A s t) (i : Nat) (v w : Xmm) :
    Agree args A (s.setx i v) (t.setx i w) := by
  refine ⟨fun n hn => ?_, h.2⟩
  have := h.1 n hn
  unfold look at this ⊢
  split <;> exact this

theorem agree_step (h : Agree args A s t) (i : Instr) :
    Agree args (flow args A i) (step s i) (step t i) := by
  cases i with
  | mov a d => exact agree_assign h _ _ _ _ fun hb => agree_get h hb
  | movl a d => exact agree_assign h _ _ _ _ fun hb => by rw [agree_get h hb]
  | add a d =>
    refine agree_assign (agree_flags h _ _ _ _) _ _ _ _ fun hb => ?_
    rw [Bool.and_eq_true] at hb
    rw [agree_get h hb.1, agree_get h hb.2]
  | adc a d => exact agree_forget (agree_flags h _ _ _ _) _ _ _
  | sub a d => exact agree_forget (agree_flags h _ _ _ _) _ _ _
  | sbb a d => exact agree_forget (agree_flags h _ _ _ _) _ _ _
  | xor a d => exact agree_forget (agree_flags h _ _ _ _) _ _ _
  | and a d => exact agree_forget (agree_flags h _ _ _ _) _ _ _
  | test a d => exact agree_flags h _ _ _ _
  | mul a =>
    have h1 := agree_forget (agree_forget h (.r .ax) (BitVec.ofNat 64 (s.ax.toNat * (s.get a).toNat))
      (BitVec.ofNat 64 (t.ax.toNat * (t.get a).toNat))) (.r .dx)
      (BitVec.ofNat 64 (s.ax.toNat * (s.get a).toNat / 2 ^ 64))
      (BitVec.ofNat 64 (t.ax.toNat * (t.get a).toNat / 2 ^ 64))
    refine ⟨fun n hn => ?_, h.2⟩
    have := h1.1 n hn
    unfold look at this ⊢
    split <;> exact this
  | shl n d => exact agree_forget (agree_flags h _ _ _ _) _ _ _
  | shr n d => exact agree_forget (agree_flags h _ _ _ _) _ _ _
  | shrd n a d => exact agree_forget (agree_flags h _ _ _ _) _ _ _
  | dec d =>
    change Agree args (if known args A d then 15 :: assign (forgetZ A) d true
      else forget (forgetZ A) d) _ _
    split
    next hp =>
      have hd := agree_get h hp
      have h1 := agree_assign (agree_flags h s.cf (decide (s.get d - 1 = 0)) t.cf
        (decide (t.get d - 1 = 0))) d true (s.get d - 1) (t.get d - 1) fun _ => by rw [hd]
      refine ⟨fun n hn => ?_, h1.2⟩
      rcases List.mem_cons.1 hn with rfl | hn
      · have e : ∀ (s : St), look (step s (.dec d)) 15 = if s.get d - 1 = 0 then 1 else 0 := by
          intro s
          change look ((s.flags s.cf (decide (s.get d - 1 = 0))).put d (s.get d - 1)) 15 = _
          rw [look_put_ne]
          · simp [look, St.flags]
          · cases d with
            | r a => cases a <;> simp [place, regNo]
            | _ => simp [place]
        rw [e, e, hd]
      · exact h1.1 n hn
    next => exact agree_forget (agree_flags h _ _ _ _) _ _ _
  | bswap d => exact agree_forget h _ _ _
  | cmov c a d =>
    have hk : ∀ v w : Option X64.W, Agree args (forget A d) (v.elim s (s.put d)) (w.elim t (t.put d)) := by
      intro v w
      refine ⟨fun n hn => ?_, fun i hi => ?_⟩
      · rw [mem_forget] at hn
        have := h.1 n hn.1
        cases v <;> cases w <;> simp only [Option.elim] <;>
          (try rw [look_put_ne _ _ _ _ hn.2]) <;> (try rw [look_put_ne _ _ _ _ hn.2]) <;> exact this
      · have := h.2 i hi
        cases v <;> cases w <;> simp only [Option.elim] <;>
          (try rw [put_arg]) <;> (try rw [put_arg]) <;> exact this
    have e : ∀ s : St, ∃ v : Option X64.W, step s (.cmov c a d) = v.elim s (s.put d) := by
      intro s
      cases c
      · by_cases hc : s.cf
        · exact ⟨some (s.get a), by simp [step, hc]⟩
        · exact ⟨none, by simp [step, hc]⟩
      · by_cases hc : s.zf
        · exact ⟨some (s.get a), by simp [step, hc]⟩
        · exact ⟨none, by simp [step, hc]⟩
      · by_cases hc : s.zf
        · exact ⟨none, by simp [step, hc]⟩
        · exact ⟨some (s.get a), by simp [step, hc]⟩
    obtain ⟨v, hv⟩ := e s
    obtain ⟨w, hw⟩ := e t
    rw [hv, hw]
    exact hk v w
  | movqx a i => exact agree_setx h _ _ _
  | movlx a i => exact agree_setx h _ _ _
  | ldx a i => exact agree_setx h _ _ _
  | stx i d => exact agree_forget (agree_forget h _ _ _) _ _ _
  | movxx i j => exact agree_setx h _ _ _
  | pxor i j => exact agree_setx h _ _ _
  | pand i j => exact agree_setx h _ _ _
  | pandn i j => exact agree_setx h _ _ _
  | pandnm a j => exact agree_setx h _ _ _
  | pcmpeql i j => exact agree_setx h _ _ _
  | paddl i j => exact agree_setx h _ _ _
  | psubl i j => exact agree_setx h _ _ _
  | pshufd0 i j => exact agree_setx h _ _ _

/-- The analysis is sound. -/
theorem check_sound {code : List Instr} {B : List Nat} (h : Agree args A s t)
    (hc : check args code A = some B) :
    trace code s = trace code t ∧ Agree args B (exec code s) (exec code t) := by
  induction code generalizing A s t with
  | nil => exact ⟨rfl, by cases hc; exact h⟩
  | cons i rest ih =>
    unfold check at hc
    split at hc
    next hi =>
      obtain ⟨h1, h2⟩ := ih (agree_step h i) hc
      exact ⟨by rw [trace, trace, agree_accesses h hi, h1], h2⟩
    next => cases hc

/-- Forget the places not in `B`. -/
theorem Agree.mono {B : List Nat} (h : Agree args A s t) (hB : ∀ n ∈ B, n ∈ A) : Agree args B s t :=
  ⟨fun n hn => h.1 n (hB n hn), h.2⟩

/-- From states that agree on `A`, the code accesses the same addresses and leaves states that agree
on `B`. -/
def Ok (args A : List Nat) (code : List Instr) (B : List Nat) : Prop :=
  ∀ s t, Agree args A s t → trace code s = trace code t ∧ Agree args B (exec code s) (exec code t)

theorem Ok.of_check {code : List Instr} {B : List Nat}
    (h : ((check args code A).elim false fun C => B.all C.contains) = true) : Ok args A code B := by
  intro s t hA
  cases hc : check args code A with
  | none => rw [hc] at h; cases h
  | some C =>
    rw [hc] at h
    simp only [Option.elim, List.all_eq_true, List.contains_iff_mem] at h
    obtain ⟨h1, h2⟩ := check_sound hA hc
    exact ⟨h1, h2.mono h⟩

theorem trace_append (a b : List Instr) (s : St) : trace (a ++ b) s = trace a s ++ trace b (exec a s) := by
  induction a generalizing s with
  | nil => rfl
  | cons i rest ih => simp only [List.cons_append, trace, exec, ih, List.append_assoc]

theorem exec_append' (a b : List Instr) (s : St) : exec (a ++ b) s = exec b (exec a s) := by
  induction a generalizing s with
  | nil => rfl
  | cons i rest ih => exact ih _

theorem Ok.append {B C : List Nat} {a b : List Instr} (h1 : Ok args A a B) (h2 : Ok args B b C) :
    Ok args A (a ++ b) C := by
  intro s t h
  obtain ⟨e1, g1⟩ := h1 s t h
  obtain ⟨e2, g2⟩ := h2 _ _ g1
  rw [trace_append, trace_append, exec_append', exec_append', e1, e2]
  exact ⟨rfl, g2⟩

theorem Ok.flatMap {α : Type} (f : α → List Instr) {l : List α} (h : ∀ v ∈ l, Ok args A (f v) A) :
    Ok args A (l.flatMap f) A := by
  induction l with
  | nil => exact fun s t h => ⟨rfl, h⟩
  | cons v l ih =>
    rw [List.flatMap_cons]
    exact (h v (by simp)).append (ih fun w hw => h w (by simp [hw]))

/-- Each piece keeps `A`. -/
theorem Ok.flatMap_check {α : Type} (f : α → List Instr) {l : List α}
    (h : l.all (fun v => (check args (f v) A).elim false fun C => A.all C.contains) = true) :
    Ok args A (l.flatMap f) A :=
  Ok.flatMap f fun v hv => Ok.of_check (List.all_eq_true.1 h v hv)

/-- A loop with an invariant set of public places that the analysis keeps, and with a public zero
flag at the end of the body. -/
theorem loop_sound {body : List Instr} {B : List Nat} (hc : check args body A = some B)
    (hB : ∀ n ∈ A, n ∈ B) (hz : 15 ∈ B) (fuel : Nat) (h : Agree args A s t) :
    loopTrace body fuel s = loopTrace body fuel t ∧
    ((loopNZ body fuel s = none ∧ loopNZ body fuel t = none) ∨
      ∃ s' t', loopNZ body fuel s = some s' ∧ loopNZ body fuel t = some t' ∧ Agree args B s' t') := by
  induction fuel generalizing s t with
  | zero => exact ⟨rfl, Or.inl ⟨rfl, rfl⟩⟩
  | succ fuel ih =>
    obtain ⟨h1, h2⟩ := check_sound h hc
    have hzf : (exec body s).zf = (exec body t).zf := by
      have := h2.1 15 hz
      simp only [look] at this
      cases hs : (exec body s).zf <;> cases ht : (exec body t).zf <;> simp_all
    obtain ⟨i1, i2⟩ := ih (h2.mono hB)
    unfold loopTrace loopNZ
    simp only [hzf, h1, i1]
    refine ⟨trivial, ?_⟩
    split
    · exact Or.inr ⟨_, _, rfl, rfl, h2⟩
    · exact i2

/-- A routine with a loop. -/
theorem routine_sound {before body after : List Instr} {A B C : List Nat}
    (h1 : check args before [] = some B) (hA : ∀ n ∈ A, n ∈ B) (h2 : check args body A = some C)
    (hC : ∀ n ∈ A, n ∈ C) (hz : 15 ∈ C) (h3 : (check args after C).isSome) (fuel : Nat)
    (h : ∀ i ∈ args, s.arg i = t.arg i) :
    routineTrace before body after fuel s = routineTrace before body after fuel t := by
  obtain ⟨a1, a2⟩ := check_sound (A := []) ⟨by simp, h⟩ h1
  obtain ⟨b1, b2⟩ := loop_sound h2 hC hz fuel (a2.mono hA)
  obtain ⟨D, hD⟩ := Option.isSome_iff_exists.1 h3
  unfold routineTrace
  rcases b2 with ⟨e1, e2⟩ | ⟨s', t', e1, e2, e3⟩
  · rw [e1, e2, Option.bind_none, Option.bind_none]
  · rw [e1, e2, b1, a1]
    simp only [Option.bind_some]
    rw [(check_sound e3 hD).1]

end Verif.Leak
