/-
A call executed instruction by instruction, and what it reads and writes on the way.
-/
import Verif.Lemmas.Touch
import Verif.Lemmas.P256Cells
import Verif.Lemmas.P256Select

namespace Verif.X64.P256

open Verif.Spec.P256 Verif.Spec.Leak Verif.Touch

/-- The next step reads words in `V`, and writes words in `V` and `U`. -/
def Fits (V U : W → Prop) : Ctl → Prop
  | .asm s (i :: _) _ => Within V U s i
  | .move ((a, _) :: _) _ => V a
  | .move [] ((d, _) :: _) => V d ∧ U d
  | _ => True

/-- From here, the call ends with memory `m'`, and each step on the way fits. -/
inductive Path (V U : W → Prop) : Ctl → (W → W) → (W → W) → Prop where
  | done (m : W → W) : Path V U .idle m m
  | step {c : Ctl} {m m' : W → W} (hi : c ≠ .idle) (hf : Fits V U c)
      (h : Path V U (micro c m).1 (micro c m).2 m') : Path V U c m m'

variable {V U : W → Prop}

theorem Path.idle {m m' : W → W} (h : Path V U .idle m m') : m' = m := by
  cases h with
  | done => rfl
  | step hi => exact absurd rfl hi

theorem Fits.mono {V' U' : W → Prop} (hV : ∀ b, V b → V' b) (hU : ∀ b, U b → U' b) {c : Ctl}
    (h : Fits V U c) : Fits V' U' c := by
  match c, h with
  | .idle, _ => trivial
  | .asm s (i :: _) _, h => exact fun e he a ha => ⟨hV _ (h e he a ha).1, fun hw => hU _ ((h e he a ha).2 hw)⟩
  | .asm s [] _, _ => trivial
  | .move ((a, _) :: _) _, h => exact hV _ h
  | .move [] ((d, _) :: _), h => exact ⟨hV _ h.1, hU _ h.2⟩
  | .move [] [], _ => trivial

theorem Path.mono {V' U' : W → Prop} (hV : ∀ b, V b → V' b) (hU : ∀ b, U b → U' b) {c : Ctl}
    {m m' : W → W} (h : Path V U c m m') : Path V' U' c m m' := by
  induction h with
  | done => exact .done _
  | step hi hf _ ih => exact .step hi (hf.mono hV hU) ih

theorem on_regs (s : St) : s.regs.on s.mem = s := rfl

theorem regs_on (s : St) (m : W → W) : (s.on m).regs = s.regs := rfl

theorem address_on (s : St) (m : W → W) (o : Opd) : address (s.on m) o = address s o := by
  cases o with
  | m a off => cases a <;> rfl
  | _ => rfl

theorem micro_back (s : St) (b : List Instr) (rest : List Piece) (m : W → W) :
    micro (.asm s [] (.back b :: rest)) m =
      if s.zf = true then (.asm s [] rest, m) else (.asm s b (.back b :: rest), m) := rfl

/-- A step has the same effect on memories that agree in `V`, and writes in `U`. -/
theorem micro_local {c : Ctl} (h : Fits V U c) {m n : W → W} (hmn : ∀ b, V b → m b = n b) :
    (micro c m).1 = (micro c n).1 ∧ (∀ b, V b → (micro c m).2 b = (micro c n).2 b) ∧
      ∀ b, ¬ U b → (micro c m).2 b = m b := by
  match c, h with
  | .idle, _ => exact ⟨rfl, hmn, fun _ _ => rfl⟩
  | .asm s (i :: cur) rest, h =>
    have hw : Within V U (s.on m) i := fun e he a ha => h e he a (by rwa [address_on] at ha)
    have hs : Touch.Sim V (s.on m) (s.on n) := ⟨rfl, hmn⟩
    have h1 := hs.step hw
    refine ⟨?_, h1.2, fun b hb => step_mem hw hb⟩
    change Ctl.asm (step (s.on m) i).regs cur rest = Ctl.asm (step (s.on n) i).regs cur rest
    rw [h1.1]
  | .asm s [] (.code l :: rest), _ => exact ⟨rfl, hmn, fun _ _ => rfl⟩
  | .asm s [] (.loop b :: rest), _ => exact ⟨rfl, hmn, fun _ _ => rfl⟩
  | .asm s [] (.back b :: rest), _ =>
    rw [micro_back, micro_back]
    split
    · exact ⟨rfl, hmn, fun _ _ => rfl⟩
    · exact ⟨rfl, hmn, fun _ _ => rfl⟩
  | .asm _ [] [], _ => exact ⟨rfl, hmn, fun _ _ => rfl⟩
  | .move ((a, d) :: reads) writes, h =>
    refine ⟨?_, hmn, fun _ _ => rfl⟩
    change Ctl.move reads (writes ++ [(d, m a)]) = Ctl.move reads (writes ++ [(d, n a)])
    rw [hmn a h]
  | .move [] ((d, v) :: writes), h =>
    refine ⟨rfl, fun b hb => ?_, fun b hb => ?_⟩
    · change upd m d v b = upd n d v b
      unfold upd
      split
      · rfl
      · exact hmn b hb
    · change upd m d v b = m b
      unfold upd
      rw [if_neg]
      rintro rfl
      exact hb h.2
  | .move [] [], _ => exact ⟨rfl, hmn, fun _ _ => rfl⟩

/-! ### Routines -/

/-- Words of a kind are in `V`, and in `U` if they are written. -/
def Covers (V U : W → Prop) (ok : ℕ → ℕ → Bool → Bool) (arg : ℕ → W) : Prop :=
  ∀ a d w, ok a d w = true → V (arg a + BitVec.ofNat 64 d) ∧ (w = true → U (arg a + BitVec.ofNat 64 d))

variable {ok : ℕ → ℕ → Bool → Bool}

theorem path_code {l : List Instr} {s : St} (hc : Covers V U ok s.arg) (h : Ok ok s l) {rest : List Piece}
    {m' : W → W} (hp : Path V U (.asm (exec l s).regs [] rest) (exec l s).mem m') :
    Path V U (.asm s.regs l rest) s.mem m' := by
  induction l generalizing s with
  | nil => exact hp
  | cons i l ih =>
    refine .step nofun ?_ (ih (s := step s i) (by rwa [step_arg]) h.2 hp)
    intro e he a ha
    obtain ⟨x, d, hk, rfl⟩ := h.1 e he a (by
      rw [← address_on (s.regs) s.mem, on_regs] at ha
      exact ha)
    exact hc x d e.2 hk

theorem path_straight {code : List Instr} {s : St} {m' : W → W} (hc : Covers V U ok s.arg)
    (h : Ok ok s code) (hm : m' = (exec code s).mem) :
    Path V U (.asm s.regs [] [.code code]) s.mem m' := by
  refine .step nofun trivial (path_code hc h ?_)
  rw [hm]
  exact .step nofun trivial (.done _)

/-- The rounds of a loop. -/
theorem path_loop {body : List Instr} {rest : List Piece} {m' : W → W} (I : ℕ → St → Prop)
    (hI : ∀ k s, I (k + 1) s → Covers V U ok s.arg ∧ Ok ok s body ∧ I k (exec body s)) {fuel : ℕ} {s s' : St}
    (hs : I fuel s) (hl : loopNZ body fuel s = some s')
    (hp : ∀ k, I k s' → Path V U (.asm s'.regs [] rest) s'.mem m') :
    Path V U (.asm s.regs body (.back body :: rest)) s.mem m' := by
  induction fuel generalizing s with
  | zero => cases hl
  | succ fuel ih =>
    obtain ⟨h1, h2, h3⟩ := hI fuel s hs
    refine path_code h1 h2 (.step nofun trivial ?_)
    unfold loopNZ at hl
    have e : (exec body s).regs.zf = (exec body s).zf := rfl
    dsimp only at hl
    rw [micro_back, e]
    split at hl
    · rename_i hz
      rw [if_pos hz]
      cases hl
      exact hp fuel h3
    · rename_i hz
      rw [if_neg hz]
      exact ih h3 hl

/-- What is known before the code is enough to see that it touches words of the kind, and what is known
after it. -/
def Good (ok : ℕ → ℕ → Bool → Bool) (env : Env) (code : List Instr) (env' : Env) : Prop :=
  ∀ s, Sound env s → Ok ok s code ∧ Sound env' (exec code s)

theorem ok_append {l l' : List Instr} {s : St} (h : Ok ok s l) (h' : Ok ok (exec l s) l') :
    Ok ok s (l ++ l') := by
  induction l generalizing s with
  | nil => exact h'
  | cons i l ih => exact ⟨h.1, ih h.2 h'⟩

theorem Good.append {l l' : List Instr} {e1 e2 e3 : Env} (h : Good ok e1 l e2) (h' : Good ok e2 l' e3) :
    Good ok e1 (l ++ l') e3 := fun s hs => by
  obtain ⟨h1, h2⟩ := h s hs
  obtain ⟨h3, h4⟩ := h' _ h2
  exact ⟨ok_append h1 h3, by rw [exec_append]; exact h4⟩

/-- The entries of `env` are among those found. -/
theorem Good.of_check {l : List Instr} {env env' : Env}
    (h : ((check ok l env).elim false fun C => env'.all C.contains) = true) : Good ok env l env' := by
  intro s hs
  cases hc : check ok l env with
  | none => rw [hc] at h; cases h
  | some C =>
    rw [hc] at h
    obtain ⟨h1, h2⟩ := check_sound hs hc
    refine ⟨h1, fun e he => h2 e ?_⟩
    exact List.contains_iff_mem.1 (List.all_eq_true.1 h e he)

theorem Good.flatMap_check {α : Type} (f : α → List Instr) {l : List α} {env : Env}
    (h : l.all (fun v => (check ok (f v) env).elim false fun C => env.all C.contains) = true) :
    Good ok env (l.flatMap f) env := by
  induction l with
  | nil => exact fun s hs => ⟨trivial, hs⟩
  | cons v l ih =>
    rw [List.all_cons, Bool.and_eq_true] at h
    exact (Good.of_check h.1).append (ih h.2)

/-- The words of some arguments: offset of the argument, number of groups of four words, and whether
they are written. -/
def within (bs : List (ℕ × ℕ × Bool)) (a d : ℕ) (w : Bool) : Bool :=
  bs.any fun b => a == b.1 && d % 8 == 0 && decide (d < 32 * b.2.1) && (b.2.2 || !w)

theorem covers_within {bs : List (ℕ × ℕ × Bool)} {arg : ℕ → W}
    (h : ∀ b ∈ bs, ∀ i < 4 * b.2.1, V (arg b.1 + BitVec.ofNat 64 (8 * i)) ∧
      (b.2.2 = true → U (arg b.1 + BitVec.ofNat 64 (8 * i)))) : Covers V U (within bs) arg := by
  intro a d w hk
  obtain ⟨b, hb, h1⟩ := List.any_eq_true.1 hk
  simp only [Bool.and_eq_true, beq_iff_eq, decide_eq_true_eq] at h1
  obtain ⟨⟨⟨rfl, h2⟩, h3⟩, h4⟩ := h1
  have h5 := h b hb (d / 8) (by omega)
  rw [show 8 * (d / 8) = d by omega] at h5
  refine ⟨h5.1, fun hw => h5.2 ?_⟩
  rw [hw] at h4
  simpa using h4

abbrev bounds2 : List (ℕ × ℕ × Bool) := [(0, 1, true), (24, 1, false)]
abbrev bounds3 : List (ℕ × ℕ × Bool) := [(0, 1, true), (24, 1, false), (48, 1, false)]
abbrev bounds9 : List (ℕ × ℕ × Bool) := [(0, 3, true), (24, 3, false), (48, 3, false)]

theorem good_sqr : Good (within bounds2) [] P256.sqr [] := .of_check (by decide +kernel)
theorem good_mul : Good (within bounds3) [] P256.mul [] := .of_check (by decide +kernel)
theorem good_ordMul : Good (within bounds3) [] P256.ordMul [] := .of_check (by decide +kernel)
theorem good_fromMont : Good (within bounds2) [] P256.fromMont [] := .of_check (by decide +kernel)
theorem good_toBig : Good (within bounds2) [] bigToLittle [] := .of_check (by decide +kernel)
theorem good_negCond : Good (within [(0, 1, true)]) [] P256.negCond [] := .of_check (by decide +kernel)
theorem good_movCond : Good (within bounds9) [] P256.movCond [] := .of_check (by decide +kernel)

theorem good_double : Good (within [(0, 3, true), (24, 3, false)]) [] pointDoubleAsm [] :=
  .of_check (by decide +kernel)

theorem good_add : Good (within bounds9) [] pointAddAsm [] := by
  have h1 : Good (within bounds9) [] (pointAddAsm_1 ++ pointAddAsm_2) [(656, 0, 0)] :=
    .of_check (by decide +kernel)
  have h2 : Good (within bounds9) [(656, 0, 0)] (pointAddAsm_3.flatMap V.code) [(656, 0, 0)] :=
    .flatMap_check _ (by decide +kernel)
  have h3 : Good (within bounds9) [(656, 0, 0)] (pointAddAsm_4 ++ pointAddAsm_5) [] :=
    .of_check (by decide +kernel)
  have := (h1.append h2).append h3
  simp only [← List.append_assoc] at this
  exact this

abbrev bounds8 : List (ℕ × ℕ × Bool) := [(0, 3, true), (24, 3, false), (48, 2, false)]

theorem good_addAffine : Good (within bounds8) [] pointAddAffineAsm [] := by
  have h1 : Good (within bounds8) [] (pointAddAffineAsm_1 ++ pointAddAffineAsm_2 ++ pointAddAffineAsm_3 ++
      pointAddAffineAsm_4 ++ pointAddAffineAsm_5 ++ pointAddAffineAsm_6 ++ pointAddAffineAsm_7)
      [(496, 0, 0)] := .of_check (by decide +kernel)
  have h2 : Good (within bounds8) [(496, 0, 0)] (pointAddAffineAsm_8.flatMap V.code) [(496, 0, 0)] :=
    .flatMap_check _ (by decide +kernel)
  have h3 : Good (within bounds8) [(496, 0, 0)] (pointAddAffineAsm_9 ++ pointAddAffineAsm_10 ++
      pointAddAffineAsm_11 ++ pointAddAffineAsm_12) [] := .of_check (by decide +kernel)
  have := (h1.append h2).append h3
  simp only [← List.append_assoc] at this
  exact this

theorem good_select_1 : Good (within [(0, 3, true), (24, 48, false)]) [] select_1 [(5, 24, 0), (3, 0, 0)] :=
  .of_check (by decide +kernel)

theorem good_select_2 {k : ℕ} (hk : k < 16) : Good (within [(0, 3, true), (24, 48, false)])
    [(5, 24, 96 * k), (3, 0, 0)] select_2 [(5, 24, 96 * (k + 1)), (3, 0, 0)] := by
  have h : (List.range 16).all (fun k => ((check (within [(0, 3, true), (24, 48, false)]) select_2
      [(5, 24, 96 * k), (3, 0, 0)]).elim false
        fun C => [(5, 24, 96 * (k + 1)), (3, 0, 0)].all C.contains)) = true := by decide +kernel
  exact .of_check (List.all_eq_true.1 h k (List.mem_range.2 hk))

theorem good_select_3 : Good (within [(0, 3, true), (24, 48, false)]) [(3, 0, 0)] select_3 [] :=
  .of_check (by decide +kernel)

theorem good_selectBase_1 : Good (within [(0, 2, true), (24, 128, false)]) [] selectBase_1 [(5, 24, 0), (3, 0, 0)] :=
  .of_check (by decide +kernel)

theorem good_selectBase_2 {k : ℕ} (hk : k < 32) : Good (within [(0, 2, true), (24, 128, false)])
    [(5, 24, 128 * k), (3, 0, 0)] selectBase_2 [(5, 24, 128 * (k + 1)), (3, 0, 0)] := by
  have h : (List.range 32).all (fun k => ((check (within [(0, 2, true), (24, 128, false)]) selectBase_2
      [(5, 24, 128 * k), (3, 0, 0)]).elim false
        fun C => [(5, 24, 128 * (k + 1)), (3, 0, 0)].all C.contains)) = true := by decide +kernel
  exact .of_check (List.all_eq_true.1 h k (List.mem_range.2 hk))

theorem good_selectBase_3 : Good (within [(0, 2, true), (24, 128, false)]) [(3, 0, 0)] selectBase_3 [] :=
  .of_check (by decide +kernel)

/-! ### Calls -/

theorem sound_nil (s : St) : Sound [] s := fun _ h => absurd h (List.not_mem_nil)

theorem path_good {code : List Instr} {s : St} {bs : List (ℕ × ℕ × Bool)} (hg : Good (within bs) [] code [])
    (hc : ∀ b ∈ bs, ∀ i < 4 * b.2.1, V (s.arg b.1 + BitVec.ofNat 64 (8 * i)) ∧
      (b.2.2 = true → U (s.arg b.1 + BitVec.ofNat 64 (8 * i)))) :
    Path V U (.asm s.regs [] [.code code]) s.mem (exec code s).mem :=
  path_straight (covers_within hc) (hg s (sound_nil s)).1 rfl

/-- A routine with a loop over a table. -/
theorem path_table {before body after : List Instr} {s s' : St} {bs : List (ℕ × ℕ × Bool)} {R stride : ℕ}
    (h1 : Good (within bs) [] before [(5, 24, 0), (3, 0, 0)])
    (h2 : ∀ k < R, Good (within bs) [(5, 24, stride * k), (3, 0, 0)] body
      [(5, 24, stride * (k + 1)), (3, 0, 0)])
    (h3 : Good (within bs) [(3, 0, 0)] after [])
    (hl : loopNZ body R (exec before s) = some s')
    (hc : ∀ b ∈ bs, ∀ i < 4 * b.2.1, V (s.arg b.1 + BitVec.ofNat 64 (8 * i)) ∧
      (b.2.2 = true → U (s.arg b.1 + BitVec.ofNat 64 (8 * i)))) :
    Path V U (.asm s.regs [] [.code before, .loop body, .code after]) s.mem (exec after s').mem := by
  have hcov : Covers V U (within bs) s.arg := covers_within hc
  obtain ⟨a1, a2⟩ := h1 s (sound_nil s)
  refine .step nofun trivial (path_code hcov a1 (.step nofun trivial ?_))
  refine path_loop (ok := within bs) (fuel := R) (s' := s')
    (fun k t => k ≤ R ∧ t.arg = s.arg ∧ Sound [(5, 24, stride * (R - k)), (3, 0, 0)] t)
    (fun k t ht => ?_) ⟨Nat.le_refl R, exec_arg _ _, by rw [Nat.sub_self, Nat.mul_zero]; exact a2⟩ hl ?_
  · obtain ⟨b1, b2⟩ := h2 (R - (k + 1)) (by omega) t ht.2.2
    refine ⟨by rw [ht.2.1]; exact hcov, b1, by omega, by rw [exec_arg]; exact ht.2.1, ?_⟩
    rw [show R - (k + 1) + 1 = R - k by omega] at b2
    exact b2
  · intro k hk
    obtain ⟨b1, b2⟩ := h3 s' fun e he => hk.2.2 e (List.mem_cons_of_mem _ he)
    refine .step nofun trivial (path_code (by rw [hk.2.1]; exact hcov) b1 (.step nofun trivial (.done _)))

theorem path_writes {ws : List (W × W)} {m : W → W} (h : ∀ w ∈ ws, V w.1 ∧ U w.1) :
    Path V U (.move [] ws) m (ws.foldl (fun m w => upd m w.1 w.2) m) := by
  induction ws generalizing m with
  | nil => exact .step nofun trivial (.done _)
  | cons w ws ih =>
    obtain ⟨d, v⟩ := w
    exact .step nofun (h (d, v) (by simp)) (ih fun w hw => h w (by simp [hw]))

theorem path_reads {rs : List (W × W)} {ws : List (W × W)} {m m' : W → W} (h : ∀ r ∈ rs, V r.1)
    (hp : Path V U (.move [] (ws ++ rs.map fun r => (r.2, m r.1))) m m') : Path V U (.move rs ws) m m' := by
  induction rs generalizing ws with
  | nil => simpa using hp
  | cons r rs ih =>
    obtain ⟨a, d⟩ := r
    refine .step nofun (h (a, d) (by simp)) (ih (fun r hr => h r (by simp [hr])) ?_)
    simpa using hp

theorem mem_nth {a : W} {n i : ℕ} {l : List (W × ℕ)} (h : (a, n) ∈ l) (hi : i < 4 * n) :
    a + BitVec.ofNat 64 (8 * i) ∈ wordsOf l :=
  List.mem_flatMap.2 ⟨(a, n), h, List.mem_map.2 ⟨i, List.mem_range.2 hi, rfl⟩⟩

theorem path_call {bs : List (ℕ × ℕ × Bool)} {code : List Instr} (hg : Good (within bs) [] code []) (s : St)
    {us : List (W × ℕ)} {d : W × ℕ}
    (h : ∀ b ∈ bs, (s.arg b.1, b.2.1) ∈ us ∧ (b.2.2 = true → (s.arg b.1, b.2.1) = d)) :
    Path (· ∈ wordsOf us) (· ∈ wordsOf [d]) (.asm s.regs [] [.code code]) s.mem (exec code s).mem :=
  path_good hg fun b hb _ hi => ⟨mem_nth (h b hb).1 hi, fun hw =>
    mem_nth (List.mem_singleton.2 ((h b hb).2 hw)) hi⟩

/-- A call executed step by step ends with the memory of the call, and stays within its arrays. -/
theorem call_path (c : Call W) (s : St) (m : W → W) : ∃ m', c.run s m = some m' ∧
    Path (· ∈ wordsOf c.uses) (· ∈ wordsOf [c.dest]) (c.start s) m m' := by
  cases c with
  | sqr r a =>
    exact ⟨_, rfl, path_call good_sqr { s with mem := m, arg := (Call.sqr r a).arg }
      (by simp [Call.arg, Call.uses, Call.dest])⟩
  | mul r a b =>
    exact ⟨_, rfl, path_call good_mul { s with mem := m, arg := (Call.mul r a b).arg }
      (by simp [Call.arg, Call.uses, Call.dest])⟩
  | ordMul r a b =>
    exact ⟨_, rfl, path_call good_ordMul { s with mem := m, arg := (Call.ordMul r a b).arg }
      (by simp [Call.arg, Call.uses, Call.dest])⟩
  | fromMont r a =>
    exact ⟨_, rfl, path_call good_fromMont { s with mem := m, arg := (Call.fromMont r a).arg }
      (by simp [Call.arg, Call.uses, Call.dest])⟩
  | negCond v c =>
    exact ⟨_, rfl, path_call good_negCond { s with mem := m, arg := (Call.negCond v c).arg }
      (by simp [Call.arg, Call.uses, Call.dest])⟩
  | movCond r a b c =>
    exact ⟨_, rfl, path_call good_movCond { s with mem := m, arg := (Call.movCond r a b c).arg }
      (by simp [Call.arg, Call.uses, Call.dest])⟩
  | add r a b =>
    exact ⟨_, rfl, path_call good_add { s with mem := m, arg := (Call.add r a b).arg }
      (by simp [Call.arg, Call.uses, Call.dest])⟩
  | double r a =>
    exact ⟨_, rfl, path_call good_double { s with mem := m, arg := (Call.double r a).arg }
      (by simp [Call.arg, Call.uses, Call.dest])⟩
  | addAffine r a b sign sel zero =>
    exact ⟨_, rfl, path_call good_addAffine { s with mem := m, arg := (Call.addAffine r a b sign sel zero).arg }
      (by simp [Call.arg, Call.uses, Call.dest])⟩
  | toBig r a =>
    exact ⟨_, rfl, path_call good_toBig { s with mem := m, arg := (Call.toBig r a).arg }
      (by simp [Call.arg, Call.uses, Call.dest])⟩
  | select r t i =>
    obtain ⟨s', h1, -⟩ := select_loop 16 (select_init { s with mem := m, arg := (Call.select r t i).arg }) (by decide)
      (by decide)
    refine ⟨(exec select_3 s').mem, ?_, path_table (stride := 96) good_select_1 (fun k hk => good_select_2 hk)
      good_select_3 h1 fun b hb i hi => ?_⟩
    · change (P256.select 16 _).map St.mem = _
      unfold P256.select
      rw [h1]
      rfl
    · rcases List.mem_cons.1 hb with rfl | hb
      · exact ⟨mem_nth (n := 3) (by simp [Call.uses, Call.arg]) hi, fun _ =>
          mem_nth (n := 3) (by simp [Call.dest, Call.arg]) hi⟩
      · rcases List.mem_cons.1 hb with rfl | hb
        · exact ⟨mem_nth (n := 48) (by simp [Call.uses, Call.arg]) hi, nofun⟩
        · cases hb
  | selectBase r t i =>
    obtain ⟨s', h1, -⟩ := base_loop 32 (base_init { s with mem := m, arg := (Call.selectBase r t i).arg }) (by decide)
      (by decide)
    refine ⟨(exec selectBase_3 s').mem, ?_, path_table (stride := 128) good_selectBase_1 (fun k hk => good_selectBase_2 hk)
      good_selectBase_3 h1 fun b hb i hi => ?_⟩
    · change (P256.selectBase 32 _).map St.mem = _
      unfold P256.selectBase
      rw [h1]
      rfl
    · rcases List.mem_cons.1 hb with rfl | hb
      · exact ⟨mem_nth (n := 2) (by simp [Call.uses, Call.arg]) hi, fun _ =>
          mem_nth (n := 2) (by simp [Call.dest, Call.arg]) hi⟩
      · rcases List.mem_cons.1 hb with rfl | hb
        · exact ⟨mem_nth (n := 128) (by simp [Call.uses, Call.arg]) hi, nofun⟩
        · cases hb
  | copy d a n =>
    refine ⟨_, rfl, path_reads (fun r hr => ?_) ?_⟩
    · obtain ⟨i, hi, rfl⟩ := List.mem_map.1 hr
      exact mem_nth (n := n) (by simp [Call.uses]) (List.mem_range.1 hi)
    · have h := path_writes (V := (· ∈ wordsOf (Call.copy d a n).uses))
        (U := (· ∈ wordsOf [(Call.copy d a n).dest])) (m := m)
        (ws := ((List.range (4 * n)).map fun i => (nth a i, nth d i)).map fun r => (r.2, m r.1)) (by
          intro w hw
          rw [List.map_map] at hw
          obtain ⟨i, hi, rfl⟩ := List.mem_map.1 hw
          exact ⟨mem_nth (n := n) (by simp [Call.uses]) (List.mem_range.1 hi),
            mem_nth (n := n) (by simp [Call.dest]) (List.mem_range.1 hi)⟩)
      rw [List.map_map, List.foldl_map] at h
      rw [List.nil_append, List.map_map]
      exact h
  | store d v =>
    refine ⟨_, rfl, ?_⟩
    have h := path_writes (V := (· ∈ wordsOf (Call.store d v).uses))
      (U := (· ∈ wordsOf [(Call.store d v).dest])) (m := m)
      (ws := (List.range 4).map fun i => (nth d i, BitVec.ofNat 64 (v / 2 ^ (64 * i)))) (by
        intro w hw
        obtain ⟨i, hi, rfl⟩ := List.mem_map.1 hw
        exact ⟨mem_nth (n := 1) (by simp [Call.uses]) (List.mem_range.1 hi),
          mem_nth (n := 1) (by simp [Call.dest]) (List.mem_range.1 hi)⟩)
    have e : ((List.range 4).map fun i => (nth d i, BitVec.ofNat 64 (v / 2 ^ (64 * i)))).foldl
        (fun m w => upd m w.1 w.2) m = wr4 m d v := by
      simp [List.range_succ, nth, wr4, wrWords]
    rw [e] at h
    exact h

end Verif.X64.P256
