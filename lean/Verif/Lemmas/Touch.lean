/-
Which words of memory an instruction reads and writes, and an analysis that finds out for a piece of
code, in terms of the arguments of the routine.
-/
import Verif.Lemmas.Leak
import Verif.Model.P256Sched

namespace Verif.Touch

open Verif.X64 Verif.Spec.Leak
open Verif.X64.St (regs)

/-- The operands of an instruction, and whether they are written. -/
def touches : Instr → List (Opd × Bool)
  | .mov a d | .movl a d | .add a d | .adc a d | .sub a d | .sbb a d | .xor a d | .and a d
  | .shrd _ a d | .cmov _ a d => [(a, false), (d, true)]
  | .test a d => [(a, false), (d, false)]
  | .mul a | .movqx a _ | .movlx a _ => [(a, false)]
  | .ldx a _ | .pandnm a _ => [(a, false), (a.next, false)]
  | .shl _ d | .shr _ d | .dec d | .bswap d => [(d, true)]
  | .stx _ d => [(d, true), (d.next, true)]
  | .movxx _ _ | .pxor _ _ | .pand _ _ | .pandn _ _ | .pcmpeql _ _ | .paddl _ _ | .psubl _ _
  | .pshufd0 _ _ => []

/-- The instruction reads and writes words in `V`, and writes words in `U`. -/
def Within (V U : X64.W → Prop) (s : St) (i : Instr) : Prop :=
  ∀ e ∈ touches i, ∀ a ∈ address s e.1, V a ∧ (e.2 = true → U a)

/-- The states differ in words of memory outside of `V` at most. -/
def Sim (V : X64.W → Prop) (s t : St) : Prop := regs s = regs t ∧ ∀ b, V b → s.mem b = t.mem b

variable {V U : X64.W → Prop} {s t : St}

theorem Sim.reg (h : Sim V s t) (a : Reg) : s.reg a = t.reg a := by
  have : (regs s).reg a = (regs t).reg a := by rw [h.1]
  cases a <;> exact this

theorem Sim.zf (h : Sim V s t) : s.zf = t.zf := by
  have : (regs s).zf = (regs t).zf := by rw [h.1]
  exact this

theorem Sim.cf (h : Sim V s t) : s.cf = t.cf := by
  have : (regs s).cf = (regs t).cf := by rw [h.1]
  exact this

theorem Sim.x (h : Sim V s t) : s.x = t.x := by
  have : (regs s).x = (regs t).x := by rw [h.1]
  exact this

theorem Sim.ax (h : Sim V s t) : s.ax = t.ax := by
  have : (regs s).ax = (regs t).ax := by rw [h.1]
  exact this

theorem Sim.get (h : Sim V s t) (o : Opd) (ho : ∀ a ∈ address s o, V a) : s.get o = t.get o := by
  cases o with
  | r a => exact h.reg a
  | i n => rfl
  | m a off =>
    have := h.2 (s.reg a + BitVec.ofNat 64 off) (ho _ (by simp [Spec.Leak.address]))
    simp only [St.get]
    rw [this, h.reg]
  | s off =>
    have : (regs s).stk off = (regs t).stk off := by rw [h.1]
    exact this
  | a off =>
    have : (regs s).arg off = (regs t).arg off := by rw [h.1]
    exact this
  | g a off => rfl

theorem Sim.address (h : Sim V s t) (o : Opd) : address s o = address t o := by
  cases o with
  | m a off => simp only [Spec.Leak.address, h.reg]
  | _ => rfl

theorem regs_setReg (s : St) (a : Reg) (v : X64.W) : regs (s.setReg a v) = (regs s).setReg a v := by
  cases a <;> rfl

theorem Sim.put (h : Sim V s t) (o : Opd) (v : X64.W) : Sim V (s.put o v) (t.put o v) := by
  cases o with
  | r a =>
    refine ⟨?_, ?_⟩
    · change regs (s.setReg a v) = regs (t.setReg a v)
      rw [regs_setReg, regs_setReg, h.1]
    · have e : ∀ s : St, (s.put (.r a) v).mem = s.mem := fun s => by cases a <;> rfl
      rw [e, e]
      exact h.2
  | m a off =>
    refine ⟨h.1, fun b hb => ?_⟩
    simp only [St.put, upd, h.reg]
    split
    · rfl
    · exact h.2 b hb
  | s off =>
    refine ⟨?_, h.2⟩
    have e : ∀ s : St, regs (s.put (.s off) v) = (regs s).put (.s off) v := fun s => rfl
    rw [e, e, h.1]
  | i n => exact h
  | a n => exact h
  | g a n => exact h

theorem Sim.flags (h : Sim V s t) (c z : Bool) : Sim V (s.flags c z) (t.flags c z) := by
  refine ⟨?_, h.2⟩
  have e : ∀ s : St, regs (s.flags c z) = (regs s).flags c z := fun s => rfl
  rw [e, e, h.1]

theorem Sim.setx (h : Sim V s t) (i : Nat) (v : Xmm) : Sim V (s.setx i v) (t.setx i v) := by
  refine ⟨?_, h.2⟩
  have e : ∀ s : St, regs (s.setx i v) = (regs s).setx i v := fun s => rfl
  rw [e, e, h.1]

/-- An instruction has the same effect in both states. -/
theorem Sim.step (h : Sim V s t) {i : Instr} (hi : Within V U s i) : Sim V (step s i) (step t i) := by
  have g : ∀ o w, (o, w) ∈ touches i → s.get o = t.get o := fun o w ho =>
    h.get o fun a ha => (hi (o, w) ho a ha).1
  cases i with
  | mov a d =>
    have e := g a false (by simp [touches])
    unfold X64.step
    simp only [e]
    exact h.put _ _
  | movl a d =>
    have e := g a false (by simp [touches])
    unfold X64.step
    simp only [e]
    exact h.put _ _
  | add a d =>
    have e := g a false (by simp [touches])
    have e' := g d true (by simp [touches])
    unfold X64.step addc
    simp only [e, e']
    exact (h.flags _ _).put _ _
  | adc a d =>
    have e := g a false (by simp [touches])
    have e' := g d true (by simp [touches])
    unfold X64.step addc
    simp only [e, e', h.cf]
    exact (h.flags _ _).put _ _
  | sub a d =>
    have e := g a false (by simp [touches])
    have e' := g d true (by simp [touches])
    unfold X64.step subb
    simp only [e, e']
    exact (h.flags _ _).put _ _
  | sbb a d =>
    have e := g a false (by simp [touches])
    have e' := g d true (by simp [touches])
    unfold X64.step subb
    simp only [e, e', h.cf]
    exact (h.flags _ _).put _ _
  | xor a d =>
    have e := g a false (by simp [touches])
    have e' := g d true (by simp [touches])
    unfold X64.step
    simp only [e, e']
    exact (h.flags _ _).put _ _
  | and a d =>
    have e := g a false (by simp [touches])
    have e' := g d true (by simp [touches])
    unfold X64.step
    simp only [e, e']
    exact (h.flags _ _).put _ _
  | test a d =>
    have e := g a false (by simp [touches])
    have e' := g d false (by simp [touches])
    unfold X64.step
    simp only [e, e']
    exact h.flags _ _
  | mul a =>
    have e := g a false (by simp [touches])
    unfold X64.step
    simp only [e, h.ax]
    refine ⟨?_, h.2⟩
    generalize t.ax.toNat * (t.get a).toNat = w
    have e : ∀ s : St, regs { s with ax := BitVec.ofNat 64 w, dx := BitVec.ofNat 64 (w / 2 ^ 64), cf := decide (2 ^ 64 ≤ w) } =
        { regs s with ax := BitVec.ofNat 64 w, dx := BitVec.ofNat 64 (w / 2 ^ 64), cf := decide (2 ^ 64 ≤ w) } := fun s => rfl
    rw [e, e, h.1]
  | shl n d =>
    have e' := g d true (by simp [touches])
    unfold X64.step
    simp only [e']
    exact (h.flags _ _).put _ _
  | shr n d =>
    have e' := g d true (by simp [touches])
    unfold X64.step
    simp only [e']
    exact (h.flags _ _).put _ _
  | shrd n a d =>
    have e := g a false (by simp [touches])
    have e' := g d true (by simp [touches])
    unfold X64.step
    simp only [e, e']
    exact (h.flags _ _).put _ _
  | dec d =>
    have e' := g d true (by simp [touches])
    unfold X64.step
    simp only [e', h.cf]
    exact (h.flags _ _).put _ _
  | bswap d =>
    have e' := g d true (by simp [touches])
    unfold X64.step
    simp only [e']
    exact h.put _ _
  | cmov c a d =>
    have e := g a false (by simp [touches])
    cases c <;> (unfold X64.step; simp only [e, h.cf, h.zf]; split <;> first | exact h.put _ _ | exact h)
  | movqx a i =>
    have e := g a false (by simp [touches])
    unfold X64.step
    simp only [e]
    exact h.setx _ _
  | movlx a i =>
    have e := g a false (by simp [touches])
    unfold X64.step
    simp only [e]
    exact h.setx _ _
  | ldx a i =>
    have e := g a false (by simp [touches])
    have e' := g a.next false (by simp [touches])
    unfold X64.step St.getx
    simp only [e, e']
    exact h.setx _ _
  | stx i d =>
    unfold X64.step
    simp only [h.x]
    exact (h.put _ _).put _ _
  | pandnm a j =>
    have e := g a false (by simp [touches])
    have e' := g a.next false (by simp [touches])
    unfold X64.step St.getx
    simp only [e, e', h.x]
    exact h.setx _ _
  | movxx i j => unfold X64.step; simp only [h.x]; exact h.setx _ _
  | pxor i j => unfold X64.step; simp only [h.x]; exact h.setx _ _
  | pand i j => unfold X64.step; simp only [h.x]; exact h.setx _ _
  | pandn i j => unfold X64.step; simp only [h.x]; exact h.setx _ _
  | pcmpeql i j => unfold X64.step; simp only [h.x]; exact h.setx _ _
  | paddl i j => unfold X64.step; simp only [h.x]; exact h.setx _ _
  | psubl i j => unfold X64.step; simp only [h.x]; exact h.setx _ _
  | pshufd0 i j => unfold X64.step; simp only [h.x]; exact h.setx _ _

theorem put_mem (s : St) (o : Opd) (v : X64.W) {b : X64.W} (hb : b ∉ address s o) :
    (s.put o v).mem b = s.mem b := by
  cases o with
  | r a => cases a <;> rfl
  | m a off =>
    have : b ≠ s.reg a + BitVec.ofNat 64 off := by simpa [address] using hb
    simp [St.put, upd, this]
  | _ => rfl

theorem address_flags (s : St) (c z : Bool) (o : Opd) : address (s.flags c z) o = address s o := by
  cases o with
  | m a off => cases a <;> rfl
  | _ => rfl

/-- An instruction writes where it may. -/
theorem step_mem {i : Instr} (hi : Within V U s i) {b : X64.W} (hb : ¬ U b) :
    (step s i).mem b = s.mem b := by
  have g : ∀ o, (o, true) ∈ touches i → b ∉ address s o := fun o ho hm => hb ((hi (o, true) ho b hm).2 rfl)
  have p : ∀ d v, (d, true) ∈ touches i → (s.put d v).mem b = s.mem b := fun d v hd => put_mem s d v (g d hd)
  have q : ∀ d v c z, (d, true) ∈ touches i → ((s.flags c z).put d v).mem b = s.mem b := fun d v c z hd =>
    put_mem (s.flags c z) d v (by rw [address_flags]; exact g d hd)
  cases i with
  | mov a d => exact p d _ (by simp [touches])
  | movl a d => exact p d _ (by simp [touches])
  | add a d => exact q d _ _ _ (by simp [touches])
  | adc a d => exact q d _ _ _ (by simp [touches])
  | sub a d => exact q d _ _ _ (by simp [touches])
  | sbb a d => exact q d _ _ _ (by simp [touches])
  | xor a d => exact q d _ _ _ (by simp [touches])
  | and a d => exact q d _ _ _ (by simp [touches])
  | test a d => rfl
  | mul a => rfl
  | shl n d => exact q d _ _ _ (by simp [touches])
  | shr n d => exact q d _ _ _ (by simp [touches])
  | shrd n a d => exact q d _ _ _ (by simp [touches])
  | dec d => exact q d _ _ _ (by simp [touches])
  | bswap d => exact p d _ (by simp [touches])
  | cmov c a d =>
    cases c <;> (unfold X64.step; simp only; split <;> first | exact p d _ (by simp [touches]) | rfl)
  | stx i d =>
    have e : address (s.put d (s.x i).lo) d.next = address s d.next := by
      cases d with
      | r a => rfl
      | m a off => cases a <;> rfl
      | _ => rfl
    change ((s.put d (s.x i).lo).put d.next (s.x i).hi).mem b = s.mem b
    rw [put_mem _ _ _ (by rw [e]; exact g d.next (by simp [touches])), p d _ (by simp [touches])]
  | _ => rfl

/-! ### The analysis -/

/-- The places an instruction changes. -/
def changes : Instr → List Nat
  | .mov _ d | .movl _ d | .add _ d | .adc _ d | .sub _ d | .sbb _ d | .xor _ d | .and _ d
  | .shrd _ _ d | .cmov _ _ d | .shl _ d | .shr _ d | .dec d | .bswap d => (Leak.place d).toList
  | .mul _ => [0, 3]
  | .stx _ d => (Leak.place d).toList ++ (Leak.place d.next).toList
  | _ => []

theorem look_put (s : St) (o : Opd) (v : X64.W) {n : Nat} (h : n ∉ (Leak.place o).toList) :
    Leak.look (s.put o v) n = Leak.look s n :=
  Leak.look_put_ne s o v n fun e => h (by rw [e]; simp)

theorem look_setx (s : St) (i : Nat) (v : Xmm) (n : Nat) : Leak.look (s.setx i v) n = Leak.look s n := by
  unfold Leak.look
  split <;> rfl

theorem look_step (s : St) (i : Instr) {n : Nat} (h : n ∉ changes i) (h15 : n ≠ 15) :
    Leak.look (step s i) n = Leak.look s n := by
  have q : ∀ d v c z, n ∉ (Leak.place d).toList →
      Leak.look ((s.flags c z).put d v) n = Leak.look s n := fun d v c z hd => by
    rw [look_put _ _ _ hd, Leak.look_flags _ _ _ _ h15]
  cases i with
  | mov a d => exact look_put _ _ _ h
  | movl a d => exact look_put _ _ _ h
  | add a d => exact q _ _ _ _ h
  | adc a d => exact q _ _ _ _ h
  | sub a d => exact q _ _ _ _ h
  | sbb a d => exact q _ _ _ _ h
  | xor a d => exact q _ _ _ _ h
  | and a d => exact q _ _ _ _ h
  | test a d => exact Leak.look_flags _ _ _ _ h15
  | mul a =>
    simp only [changes, List.mem_cons, List.not_mem_nil, or_false, not_or] at h
    unfold Leak.look
    split <;> first | rfl | exact absurd rfl h.1 | exact absurd rfl h.2
  | shl k d => exact q _ _ _ _ h
  | shr k d => exact q _ _ _ _ h
  | shrd k a d => exact q _ _ _ _ h
  | dec d => exact q _ _ _ _ h
  | bswap d => exact look_put _ _ _ h
  | cmov c a d =>
    cases c <;> (unfold X64.step; simp only; split <;> first | exact look_put _ _ _ h | rfl)
  | stx i d =>
    simp only [changes, List.mem_append, not_or] at h
    change Leak.look ((s.put d _).put d.next _) n = _
    rw [look_put _ _ _ h.2, look_put _ _ _ h.1]
  | _ => exact look_setx _ _ _ _

theorem step_arg (s : St) (i : Instr) : (step s i).arg = s.arg := by
  cases i with
  | cmov c a d => cases c <;> (unfold X64.step; simp only; split <;> first | exact Leak.put_arg _ _ _ | rfl)
  | stx i d => exact (Leak.put_arg _ _ _).trans (Leak.put_arg _ _ _)
  | mov a d => exact Leak.put_arg _ _ _
  | movl a d => exact Leak.put_arg _ _ _
  | add a d => exact Leak.put_arg _ _ _
  | adc a d => exact Leak.put_arg _ _ _
  | sub a d => exact Leak.put_arg _ _ _
  | sbb a d => exact Leak.put_arg _ _ _
  | xor a d => exact Leak.put_arg _ _ _
  | and a d => exact Leak.put_arg _ _ _
  | shl k d => exact Leak.put_arg _ _ _
  | shr k d => exact Leak.put_arg _ _ _
  | shrd k a d => exact Leak.put_arg _ _ _
  | dec d => exact Leak.put_arg _ _ _
  | bswap d => exact Leak.put_arg _ _ _
  | _ => rfl

/-- What is known about places: place, offset of an argument, and a number to add to it. -/
abbrev Env := List (Nat × Nat × Nat)

/-- The entry of a place. -/
def find (env : Env) (n : Nat) : Option (Nat × Nat) := (env.find? fun e => e.1 == n).map Prod.snd

/-- What is known holds. -/
def Sound (env : Env) (s : St) : Prop :=
  ∀ e ∈ env, e.1 ≠ 15 ∧ Leak.look s e.1 = s.arg e.2.1 + BitVec.ofNat 64 e.2.2

theorem Sound.find {env : Env} (h : Sound env s) {n : Nat} {p : Nat × Nat} (hf : find env n = some p) :
    Leak.look s n = s.arg p.1 + BitVec.ofNat 64 p.2 := by
  unfold Touch.find at hf
  obtain ⟨e, he, rfl⟩ := Option.map_eq_some_iff.1 hf
  have h1 := List.find?_some he
  have h2 := h e (List.mem_of_find?_eq_some he)
  rw [← beq_iff_eq.1 h1]
  exact h2.2

/-- What is known about an operand. -/
def val (env : Env) : Opd → Option (Nat × Nat)
  | .r a => find env (Leak.regNo a)
  | .s off => find env (off + 16)
  | .a off => some (off, 0)
  | _ => none

theorem Sound.val {env : Env} (h : Sound env s) {o : Opd} {p : Nat × Nat} (hv : val env o = some p) :
    s.get o = s.arg p.1 + BitVec.ofNat 64 p.2 := by
  cases o with
  | r a =>
    have := h.find hv
    rw [Leak.look_reg] at this
    exact this
  | s off => exact h.find hv
  | a off =>
    cases hv
    exact (BitVec.add_zero _).symm
  | _ => cases hv

/-- Forget places. -/
def drop (env : Env) (l : List Nat) : Env := env.filter fun e => !l.contains e.1

/-- The place of an operand has a value. -/
def assign (env : Env) (d : Opd) : Option (Nat × Nat) → Env
  | some p => match Leak.place d with
    | some n => (n, p) :: drop env [n]
    | none => env
  | none => drop env (Leak.place d).toList

/-- What is known after an instruction. -/
def flow (env : Env) : Instr → Env
  | .mov a d => assign env d (val env a)
  | .add (.i n) d => assign env d ((val env d).map fun p => (p.1, p.2 + n))
  | i => drop env (changes i)

/-- The touched words are of the kind `ok`; what is known after the code. -/
def check (ok : Nat → Nat → Bool → Bool) : List Instr → Env → Option Env
  | [], env => some env
  | i :: rest, env =>
    if (touches i).all fun e => match e.1 with
      | .m a off => (find env (Leak.regNo a)).elim false fun p => ok p.1 (p.2 + off) e.2
      | _ => true
    then check ok rest (flow env i) else none

theorem Sound.drop {env : Env} (h : Sound env s) {i : Instr} : Sound (drop env (changes i)) (step s i) := by
  intro e he
  unfold Touch.drop at he
  rw [List.mem_filter] at he
  have h1 := h e he.1
  refine ⟨h1.1, ?_⟩
  have h2 : e.1 ∉ changes i := by simpa using he.2
  rw [look_step s i h2 h1.1, step_arg]
  exact h1.2

theorem place_ne (d : Opd) {n : Nat} (h : Leak.place d = some n) : n ≠ 15 := by
  cases d with
  | r a => cases h; cases a <;> decide
  | s off => cases h; omega
  | _ => cases h

theorem Sound.assign {env : Env} (h : Sound env s) {i : Instr} {d : Opd} {p : Option (Nat × Nat)}
    (hd : changes i = (Leak.place d).toList)
    (hv : ∀ q, p = some q → ∀ n, Leak.place d = some n →
      Leak.look (step s i) n = s.arg q.1 + BitVec.ofNat 64 q.2) : Sound (assign env d p) (step s i) := by
  have hdrop := h.drop (i := i)
  rw [hd] at hdrop
  unfold Touch.assign
  cases p with
  | none => exact hdrop
  | some q =>
    cases hp : Leak.place d with
    | none =>
      rw [hp] at hdrop
      have e : Touch.drop env [] = env := List.filter_eq_self.2 (by simp)
      change Sound (Touch.drop env []) (step s i) at hdrop
      rwa [e] at hdrop
    | some n =>
      rw [hp] at hdrop
      intro e he
      rcases List.mem_cons.1 he with rfl | he
      · refine ⟨place_ne d hp, ?_⟩
        rw [step_arg]
        exact hv q rfl n hp
      · exact hdrop e he

theorem Sound.flow {env : Env} (h : Sound env s) (i : Instr) : Sound (flow env i) (step s i) := by
  unfold Touch.flow
  split
  next a d =>
    refine h.assign rfl fun q hq n hn => ?_
    change Leak.look (s.put d (s.get a)) n = _
    rw [Leak.look_put_eq _ _ _ _ hn]
    exact h.val hq
  next k d =>
    refine h.assign rfl fun q hq n hn => ?_
    obtain ⟨p, hp, rfl⟩ := Option.map_eq_some_iff.1 hq
    change Leak.look (St.put (s.flags _ _) d _) n = _
    rw [Leak.look_put_eq _ _ _ _ hn, h.val hp]
    change BitVec.ofNat 64 ((s.arg p.1 + BitVec.ofNat 64 p.2).toNat + (BitVec.ofNat 64 k).toNat + 0) = _
    apply BitVec.eq_of_toNat_eq
    simp only [BitVec.toNat_ofNat, BitVec.toNat_add]
    omega
  next => exact h.drop

/-- The words of a kind, given the arguments. -/
def Kind (ok : Nat → Nat → Bool → Bool) (w : Bool) (s : St) (b : X64.W) : Prop :=
  ∃ a d, ok a d w = true ∧ b = s.arg a + BitVec.ofNat 64 d

/-- All instructions touch words of the kind. -/
def Ok (ok : Nat → Nat → Bool → Bool) (s : St) : List Instr → Prop
  | [] => True
  | i :: rest => (∀ e ∈ touches i, ∀ b ∈ address s e.1, Kind ok e.2 s b) ∧ Ok ok (step s i) rest

theorem check_sound {ok : Nat → Nat → Bool → Bool} {code : List Instr} {env env' : Env} (h : Sound env s)
    (hc : check ok code env = some env') : Ok ok s code ∧ Sound env' (exec code s) := by
  induction code generalizing env s with
  | nil => cases hc; exact ⟨trivial, h⟩
  | cons i rest ih =>
    unfold check at hc
    split at hc
    next hi =>
      obtain ⟨h1, h2⟩ := ih (h.flow i) hc
      refine ⟨⟨fun e he b hb => ?_, h1⟩, h2⟩
      have := List.all_eq_true.1 hi e he
      obtain ⟨o, w⟩ := e
      cases o with
      | m a off =>
        dsimp only at this
        cases hf : Touch.find env (Leak.regNo a) with
        | none => rw [hf] at this; cases this
        | some p =>
          rw [hf] at this
          have h3 := h.find hf
          rw [Leak.look_reg] at h3
          refine ⟨p.1, p.2 + off, this, ?_⟩
          have hb' : b = s.reg a + BitVec.ofNat 64 off := by simpa [address] using hb
          rw [hb', h3, BitVec.add_assoc, ← BitVec.ofNat_add]
      | _ => simp [address] at hb
    next => cases hc

theorem exec_arg (code : List Instr) (s : St) : (exec code s).arg = s.arg := by
  induction code generalizing s with
  | nil => rfl
  | cons i rest ih => exact (ih _).trans (step_arg s i)

end Verif.Touch
