/-
The point routines of sm2/p256_asm_amd64.s compute the formulas of Model/P256Point: a simulation
of the pieces of code working on whole 256-bit numbers.
-/
import Verif.Lemmas.P256Refine
import Verif.Model.P256Point

namespace Verif.X64.P256

/-- The numbers in acc, in t and in the 32-byte frame cells; `none` if nothing is known. -/
structure VS (F : Type) where
  acc : Option F
  t : Option F
  slot : ℕ → Option F

/-- A binary operation on known numbers. -/
def op2 {F : Type} (f : F → F → F) : Option F → Option F → Option F
  | some a, some b => some (f a b)
  | _, _ => none

theorem op2_some {F : Type} (f : F → F → F) (a b : F) :
    op2 f (some a) (some b) = some (f a b) := rfl

theorem op2_eq_some {F : Type} {f : F → F → F} {a b : Option F} {v : F}
    (h : op2 f a b = some v) : ∃ x y, a = some x ∧ b = some y ∧ v = f x y := by
  cases a <;> cases b <;> simp [op2] at h
  exact ⟨_, _, rfl, rfl, h.symm⟩

/-- What a piece of code does to them. -/
def V.sem {F : Type} [Ops F] : V → VS F → VS F
  | .ldacc k, v => { v with acc := v.slot k }
  | .ldt k, v => { v with t := v.slot k }
  | .st k, v => { v with slot := upd v.slot k v.acc }
  | .stt k, v => { v with slot := upd v.slot k v.t }
  | .acc2t, v => { v with t := v.acc }
  | .t2acc, v => { v with acc := v.t }
  | .mul2, v => { v with acc := none, t := op2 Ops.add v.acc v.acc }
  | .add, v => { v with acc := none, t := op2 Ops.add v.acc v.t }
  | .mul, v => { v with acc := op2 Ops.mul v.acc v.t }
  | .sqr, v => { v with acc := op2 Ops.mul v.acc v.acc, t := none }
  | .sub, v => { v with acc := op2 Ops.sub v.acc v.t }

theorem nat_mul (a b : ℕ) : Ops.mul a b = mulP a b := (rfl)
theorem nat_sub (a b : ℕ) : Ops.sub a b = subP a b := (rfl)
theorem nat_add (a b : ℕ) : Ops.add a b = addP a b := (rfl)
theorem nat_half (a : ℕ) : Ops.half a = halfP a := (rfl)
theorem nat_negA (a : ℕ) : Ops.negA a = subP P a := (rfl)
theorem sqrP_eq (a : ℕ) : sqrP a = mulP a a := (rfl)
theorem dblP_eq (a : ℕ) : dblP a = addP a a := (rfl)

/-- The frame cell a piece of code uses. -/
def V.cell : V → ℕ
  | .ldacc k => k | .ldt k => k | .st k => k | .stt k => k
  | _ => 0

/-- A number that is known is the number `w`. -/
def Is (o : Option ℕ) (w : ℕ) : Prop := ∀ v, o = some v → w = v

theorem Is.op2 {f : ℕ → ℕ → ℕ} {a b : Option ℕ} {x y w : ℕ} (ha : Is a x) (hb : Is b y)
    (hw : w = f x y) : Is (op2 f a b) w := by
  intro v hv
  obtain ⟨x', y', rfl, rfl, rfl⟩ := op2_eq_some hv
  rw [hw, ha _ rfl, hb _ rfl]

theorem Is.none {w : ℕ} : Is none w := fun _ h => by cases h

/-- The number in frame cell `k`. -/
def stk4 (f : ℕ → W) (k : ℕ) : ℕ :=
  val4 (f (32 * k + 0)) (f (32 * k + 8)) (f (32 * k + 16)) (f (32 * k + 24))

/-- The state of the machine agrees with what is known about it, and since `s₀` memory, arguments
and the frame from offset `32 * K` on have not changed. -/
structure Sim (K : ℕ) (s₀ s : St) (v : VS ℕ) : Prop where
  acc : Is v.acc (val4 s.r10 s.r11 s.r12 s.r13)
  t : Is v.t (val4 s.r14 s.r15 s.di s.si)
  slot : ∀ k < K, Is (v.slot k) (stk4 s.stk k)
  mem : s.mem = s₀.mem
  arg : s.arg = s₀.arg
  stk : ∀ o, 32 * K ≤ o → s.stk o = s₀.stk o

theorem stk4_upd_same (f : ℕ → W) (k : ℕ) (a b c d : W) :
    stk4 (upd (upd (upd (upd f (32 * k + 0) a) (32 * k + 8) b) (32 * k + 16) c) (32 * k + 24) d) k =
      val4 a b c d := by
  unfold stk4 upd
  simp

theorem stk4_upd_ne (f : ℕ → W) {k j : ℕ} (h : j ≠ k) (a b c d : W) :
    stk4 (upd (upd (upd (upd f (32 * k + 0) a) (32 * k + 8) b) (32 * k + 16) c) (32 * k + 24) d) j =
      stk4 f j := by
  unfold stk4 upd
  rw [if_neg (by omega), if_neg (by omega), if_neg (by omega), if_neg (by omega),
    if_neg (by omega), if_neg (by omega), if_neg (by omega), if_neg (by omega),
    if_neg (by omega), if_neg (by omega), if_neg (by omega), if_neg (by omega),
    if_neg (by omega), if_neg (by omega), if_neg (by omega), if_neg (by omega)]

theorem upd_ge (f : ℕ → W) {k o K : ℕ} (h : k < K) (ho : 32 * K ≤ o) (a b c d : W) :
    upd (upd (upd (upd f (32 * k + 0) a) (32 * k + 8) b) (32 * k + 16) c) (32 * k + 24) d o =
      f o := by
  unfold upd
  rw [if_neg (by omega), if_neg (by omega), if_neg (by omega), if_neg (by omega)]

theorem Sim.store {K k : ℕ} {s₀ s : St} {v : VS ℕ} (h : Sim K s₀ s v) (hk : k < K)
    {a b c d : W} {o : Option ℕ} (ho : Is o (val4 a b c d)) :
    ∀ j < K, Is (upd v.slot k o j) (stk4 (upd (upd (upd (upd s.stk (32 * k + 0) a) (32 * k + 8) b)
      (32 * k + 16) c) (32 * k + 24) d) j) := by
  intro j hj
  by_cases hjk : j = k
  · subst hjk
    rw [stk4_upd_same]
    unfold upd
    rw [if_pos rfl]
    exact ho
  · rw [stk4_upd_ne _ hjk]
    unfold upd
    rw [if_neg hjk]
    exact h.slot j hj

theorem exec_st (k : ℕ) (s : St) : exec (P256.st k) s =
    { s with stk := upd (upd (upd (upd s.stk (32 * k + 0) s.r10) (32 * k + 8) s.r11)
      (32 * k + 16) s.r12) (32 * k + 24) s.r13 } := by
  simp only [P256.st, exec, step, St.put, St.setReg, St.get, St.reg]

theorem exec_stt (k : ℕ) (s : St) : exec (P256.stt k) s =
    { s with stk := upd (upd (upd (upd s.stk (32 * k + 0) s.r14) (32 * k + 8) s.r15)
      (32 * k + 16) s.di) (32 * k + 24) s.si } := by
  simp only [P256.stt, exec, step, St.put, St.setReg, St.get, St.reg]

theorem exec_ldacc (k : ℕ) (s : St) : exec (P256.ldacc k) s =
    { s with r10 := s.stk (32 * k + 0), r11 := s.stk (32 * k + 8),
             r12 := s.stk (32 * k + 16), r13 := s.stk (32 * k + 24) } := by
  simp only [P256.ldacc, exec, step, St.put, St.setReg, St.get, St.reg]

theorem exec_ldt (k : ℕ) (s : St) : exec (P256.ldt k) s =
    { s with r14 := s.stk (32 * k + 0), r15 := s.stk (32 * k + 8),
             di := s.stk (32 * k + 16), si := s.stk (32 * k + 24) } := by
  simp only [P256.ldt, exec, step, St.put, St.setReg, St.get, St.reg]

theorem exec_acc2t (s : St) : exec P256.acc2t s =
    { s with r14 := s.r10, r15 := s.r11, di := s.r12, si := s.r13 } := by
  simp only [P256.acc2t, exec, step, St.put, St.setReg, St.get, St.reg]

theorem exec_t2acc (s : St) : exec P256.t2acc s =
    { s with r10 := s.r14, r11 := s.r15, r12 := s.di, r13 := s.si } := by
  simp only [P256.t2acc, exec, step, St.put, St.setReg, St.get, St.reg]

theorem V.sim (c : V) {K : ℕ} {s₀ s : St} {v : VS ℕ} (hc : c.cell < K) (h : Sim K s₀ s v) :
    Sim K s₀ (exec c.code s) (c.sem v) := by
  cases c with
  | ldacc k =>
    change Sim K s₀ (exec (P256.ldacc k) s) _
    rw [exec_ldacc]
    exact ⟨h.slot k hc, h.t, h.slot, h.mem, h.arg, h.stk⟩
  | ldt k =>
    change Sim K s₀ (exec (P256.ldt k) s) _
    rw [exec_ldt]
    exact ⟨h.acc, h.slot k hc, h.slot, h.mem, h.arg, h.stk⟩
  | st k =>
    change Sim K s₀ (exec (P256.st k) s) _
    rw [exec_st]
    exact ⟨h.acc, h.t, h.store hc h.acc, h.mem, h.arg,
      fun o ho => (upd_ge _ hc ho _ _ _ _).trans (h.stk o ho)⟩
  | stt k =>
    change Sim K s₀ (exec (P256.stt k) s) _
    rw [exec_stt]
    exact ⟨h.acc, h.t, h.store hc h.t, h.mem, h.arg,
      fun o ho => (upd_ge _ hc ho _ _ _ _).trans (h.stk o ho)⟩
  | acc2t =>
    change Sim K s₀ (exec P256.acc2t s) _
    rw [exec_acc2t]
    exact ⟨h.acc, h.acc, h.slot, h.mem, h.arg, h.stk⟩
  | t2acc =>
    change Sim K s₀ (exec P256.t2acc s) _
    rw [exec_t2acc]
    exact ⟨h.t, h.t, h.slot, h.mem, h.arg, h.stk⟩
  | mul2 =>
    have := @mulBy2Inline_wp (fun s' => Sim K s₀ s' (V.mul2.sem v)) s []
      (fun _ _ _ _ _ _ _ _ _ _ _ hw _ =>
        ⟨Is.none, h.acc.op2 h.acc ((words_val4 hw).trans ((dblP_eq _).trans (nat_add _ _).symm)), h.slot, h.mem, h.arg, h.stk⟩)
    rwa [List.append_nil] at this
  | add =>
    have := @addInline_wp (fun s' => Sim K s₀ s' (V.add.sem v)) s []
      (fun _ _ _ _ _ _ _ _ _ _ _ hw _ =>
        ⟨Is.none, h.acc.op2 h.t ((words_val4 hw).trans (nat_add _ _).symm), h.slot, h.mem, h.arg, h.stk⟩)
    rwa [List.append_nil] at this
  | mul =>
    have := @mulInternal_wp (fun s' => Sim K s₀ s' (V.mul.sem v)) s []
      (fun _ _ _ _ _ _ _ _ _ _ _ _ _ hw =>
        ⟨h.acc.op2 h.t ((words_val4 hw).trans (nat_mul _ _).symm), h.t, h.slot, h.mem, h.arg, h.stk⟩)
    rwa [List.append_nil] at this
  | sqr =>
    have := @sqrInternal_wp (fun s' => Sim K s₀ s' (V.sqr.sem v)) s []
      (fun _ _ _ _ _ _ _ _ _ _ _ _ _ _ _ _ _ hw =>
        ⟨h.acc.op2 h.acc ((words_val4 hw).trans ((sqrP_eq _).trans (nat_mul _ _).symm)), Is.none, h.slot, h.mem, h.arg, h.stk⟩)
    rwa [List.append_nil] at this
  | sub =>
    have := @subInternal_wp (fun s' => Sim K s₀ s' (V.sub.sem v)) s []
      (fun _ _ _ _ _ _ _ _ _ _ _ hw =>
        ⟨h.acc.op2 h.t ((words_val4 hw).trans (nat_sub _ _).symm), h.t, h.slot, h.mem, h.arg, h.stk⟩)
    rwa [List.append_nil] at this

/-- A sequence of pieces. -/
def runV {F : Type} [Ops F] (l : List V) (v : VS F) : VS F := l.foldl (fun v c => c.sem v) v

theorem runV_sim (l : List V) {K : ℕ} {s₀ s : St} {v : VS ℕ} (hl : ∀ c ∈ l, c.cell < K)
    (h : Sim K s₀ s v) : Sim K s₀ (exec (l.flatMap V.code) s) (runV l v) := by
  induction l generalizing s v with
  | nil => exact h
  | cons c l ih =>
    rw [List.flatMap_cons, exec_append]
    exact ih (fun d hd => hl d (List.mem_cons_of_mem c hd)) (c.sim (hl c List.mem_cons_self) h)

theorem runV_cons {F : Type} [Ops F] (c : V) (l : List V) (v : VS F) :
    runV (c :: l) v = runV l (c.sem v) := rfl

theorem runV_nil {F : Type} [Ops F] (v : VS F) : runV [] v = v := rfl

theorem upd_apply {α β : Type} [DecidableEq α] (f : α → β) (a : α) (v : β) (b : α) :
    upd f a v b = if b = a then v else f b := rfl

theorem runV_append {F : Type} [Ops F] (l m : List V) (v : VS F) : runV (l ++ m) v = runV m (runV l v) :=
  List.foldl_append

/-! ### Vector moves -/

theorem ofWords_lo (a b : W) : (Xmm.ofWords a b).lo = a := by
  unfold Xmm.ofWords Xmm.lo
  apply BitVec.eq_of_toNat_eq
  simp only [BitVec.toNat_append, BitVec.extractLsb'_toNat, Nat.shiftRight_zero]
  have := a.isLt
  rw [← Nat.shiftLeft_add_eq_or_of_lt (Nat.mod_lt _ (by decide)), Nat.shiftLeft_eq, Nat.shiftRight_eq_div_pow]
  omega

theorem ofWords_hi (a b : W) : (Xmm.ofWords a b).hi = b := by
  unfold Xmm.ofWords Xmm.hi
  apply BitVec.eq_of_toNat_eq
  simp only [BitVec.toNat_append, BitVec.extractLsb'_toNat, Nat.shiftRight_zero]
  have := b.isLt
  rw [← Nat.shiftLeft_add_eq_or_of_lt (Nat.mod_lt _ (by decide)), Nat.shiftLeft_eq, Nat.shiftRight_eq_div_pow]
  omega

end Verif.X64.P256
