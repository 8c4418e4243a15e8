/-
The addresses the methods of sm2/p256_amd64.go access.
-/
import Verif.Spec.P256Leak
import Verif.Lemmas.P256Cells
import Verif.Props.P256Leak

namespace Verif.X64.P256

open Verif.Spec.Leak Verif.Props

/-- The call without its numbers. -/
def Call.skel {α : Type} : Call α → Call α
  | .negCond v _ => .negCond v 0
  | .movCond r a b _ => .movCond r a b 0
  | .select r t _ => .select r t 0
  | .selectBase r t _ => .selectBase r t 0
  | .addAffine r a b _ _ _ => .addAffine r a b 0 0 0
  | .store d _ => .store d 0
  | c => c

theorem callTrace_skel (c : Call W) (s t : St) (m n : W → W) :
    callTrace c s m = callTrace c.skel t n := by
  have e2 : ∀ {s t : St}, s.arg 0 = t.arg 0 → s.arg 24 = t.arg 24 → SamePointers [0, 24] s t :=
    fun h1 h2 i hi => by simp at hi; rcases hi with rfl | rfl <;> assumption
  have e3 : ∀ {s t : St}, s.arg 0 = t.arg 0 → s.arg 24 = t.arg 24 → s.arg 48 = t.arg 48 →
      SamePointers [0, 24, 48] s t :=
    fun h1 h2 h3 i hi => by simp at hi; rcases hi with rfl | rfl | rfl <;> assumption
  cases c with
  | sqr r a => exact congrArg (fun t => some [t]) (C87_sqr _ _ (e2 rfl rfl))
  | mul r a b => exact congrArg (fun t => some [t]) (C87_mul _ _ (e3 rfl rfl rfl))
  | ordMul r a b => exact congrArg (fun t => some [t]) (C87_ordMul _ _ (e3 rfl rfl rfl))
  | fromMont r a => exact congrArg (fun t => some [t]) (C87_fromMont _ _ (e2 rfl rfl))
  | negCond v c =>
    refine congrArg (fun t => some [t]) (C87_negCond _ _ fun i hi => ?_)
    rw [List.mem_singleton] at hi
    subst hi
    rfl
  | movCond r a b c => exact congrArg (fun t => some [t]) (C87_movCond _ _ (e3 rfl rfl rfl))
  | select r b i =>
    have h := C87_select { s with mem := m, arg := (Call.select r b i).arg }
      { t with mem := n, arg := (Call.select r b 0).arg } 16 (e2 rfl rfl)
    unfold callTrace
    simp only [Call.skel]
    rw [h]
  | selectBase r b i =>
    have h := C87_selectBase { s with mem := m, arg := (Call.selectBase r b i).arg }
      { t with mem := n, arg := (Call.selectBase r b 0).arg } 32 (e2 rfl rfl)
    unfold callTrace
    simp only [Call.skel]
    rw [h]
  | add r a b => exact congrArg (fun t => some [t]) (C87_pointAdd _ _ (e3 rfl rfl rfl))
  | double r a => exact congrArg (fun t => some [t]) (C87_pointDouble _ _ (e2 rfl rfl))
  | addAffine r a b sign sel zero =>
    exact congrArg (fun t => some [t]) (C87_pointAddAffine _ _ (e3 rfl rfl rfl))
  | toBig r a => exact congrArg (fun t => some [t]) (C87_bytes _ _ (e2 rfl rfl))
  | copy d a k => rfl
  | store d v => rfl

/-- A loop that ends has a trace. -/
theorem loopTrace_exists {body : List Instr} {fuel : ℕ} {s s' : St} (h : loopNZ body fuel s = some s') :
    ∃ t, loopTrace body fuel s = some t := by
  induction fuel generalizing s with
  | zero => simp [loopNZ] at h
  | succ fuel ih =>
    unfold loopNZ at h
    unfold loopTrace
    by_cases hz : (exec body s).zf
    · rw [if_pos hz]; exact ⟨_, rfl⟩
    · rw [if_neg hz] at h ⊢
      obtain ⟨t, ht⟩ := ih h
      exact ⟨_, by rw [ht]; rfl⟩

/-- A routine whose loop ends has a trace. -/
theorem routineTrace_exists {before body after : List Instr} {fuel : ℕ} {s : St} {m' : W → W}
    (h : ((loopNZ body fuel (exec before s)).map (exec after)).map St.mem = some m') :
    ∃ t, routineTrace before body after fuel s = some t := by
  cases e : loopNZ body fuel (exec before s) with
  | none => rw [e] at h; simp at h
  | some s' =>
    obtain ⟨t, ht⟩ := loopTrace_exists e
    unfold routineTrace
    rw [e, ht]
    exact ⟨_, rfl⟩

/-- A call that returns has a trace. -/
theorem callTrace_exists (c : Call W) (s : St) (m : W → W) {m' : W → W} (h : c.run s m = some m') :
    ∃ t, callTrace c s m = some t := by
  cases c with
  | select r t i =>
    obtain ⟨t, ht⟩ := routineTrace_exists (before := select_1) (body := select_2) (after := select_3) h
    exact ⟨_, by unfold callTrace; simp only; rw [ht]; rfl⟩
  | selectBase r t i =>
    obtain ⟨t, ht⟩ := routineTrace_exists (before := selectBase_1) (body := selectBase_2) (after := selectBase_3) h
    exact ⟨_, by unfold callTrace; simp only; rw [ht]; rfl⟩
  | _ => exact ⟨_, rfl⟩

/-- Calls with the same pointers are seen alike. -/
theorem callsTrace_skel {cs ds : List (Call W)} (h : cs.map Call.skel = ds.map Call.skel) (j k : ℕ → St)
    (m n : W → W) : callsTrace j cs m = callsTrace k ds n := by
  induction cs generalizing ds j k m n with
  | nil =>
    cases ds with
    | nil => rfl
    | cons d ds => cases h
  | cons c cs ih =>
    cases ds with
    | nil => cases h
    | cons d ds =>
      rw [List.map_cons, List.map_cons, List.cons.injEq] at h
      obtain ⟨m', e, -⟩ := c.run_dest (j 0) m
      obtain ⟨n', e', -⟩ := d.run_dest (k 0) n
      unfold callsTrace
      rw [e, e', callTrace_skel c (j 0) (k 0) m n, h.1, ← callTrace_skel d (k 0) (k 0) n n]
      simp only [Option.bind_some]
      rw [ih h.2 (fun i => j (i + 1)) (fun i => k (i + 1)) m' n']

variable {α : Type} [Ptr α]

theorem skel_digits (p precomp t0 t1 : α) (k l n : ℕ) (z w : W) :
    (digitsProg p precomp t0 t1 k n z).map Call.skel = (digitsProg p precomp t0 t1 l n w).map Call.skel := by
  induction n generalizing z w with
  | zero => simp only [digitsProg, digitProg, List.map_cons, List.map_nil, Call.skel]
  | succ n ih =>
    unfold digitsProg
    simp only [List.map_append]
    rw [ih _ (w ||| (boothW5 (window l (5 * n + 4) 0x3f)).1)]
    simp only [digitProg, List.map_cons, List.map_nil, Call.skel]

theorem skel_mult (p precomp t0 t1 t2 t3 : α) (k l : ℕ) :
    (multProg p precomp t0 t1 t2 t3 k).map Call.skel = (multProg p precomp t0 t1 t2 t3 l).map Call.skel := by
  unfold multProg
  simp only [List.map_append]
  rw [skel_digits p precomp t0 t1 k l 50 _ (boothW5 ((word l 3 >>> 62) &&& 0x3f)).1]
  rfl

theorem skel_rounds (p t0 table : α) (k l n : ℕ) (z w : W) :
    (baseRounds p t0 table k n z).map Call.skel = (baseRounds p t0 table l n w).map Call.skel := by
  induction n generalizing z w with
  | zero => rfl
  | succ n ih =>
    unfold baseRounds
    simp only [List.map_append]
    rw [ih _ (w ||| (boothW7 (window l (7 * (36 - n) - 1) 0xff)).1)]
    rfl

theorem skel_base (p t0 table : α) (k l : ℕ) :
    (baseProg p t0 table k).map Call.skel = (baseProg p t0 table l).map Call.skel := by
  unfold baseProg
  simp only [List.map_append]
  rw [skel_rounds p t0 table k l 36 _ (boothW7 ((word l 0 <<< 1) &&& 0xff)).1]
  rfl

theorem skel_ordInv (k l : ℕ) (table x s t rr one xOut : α) :
    (ordInvProg k table x s t rr one xOut).map Call.skel = (ordInvProg l table x s t rr one xOut).map Call.skel := by
  unfold ordInvProg
  simp only [List.map_append]
  rfl

theorem skel_point (r rrv : α) (x y x' y' : ℕ) :
    (pointProg r rrv x y).map Call.skel = (pointProg r rrv x' y').map Call.skel := rfl

end Verif.X64.P256
