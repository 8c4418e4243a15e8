/-
The methods of sm2/p256_amd64.go in any number of goroutines: the invariant of all histories.
-/
import Verif.Lemmas.P256Path
import Verif.Lemmas.P256Methods
import Verif.Spec.P256Sched

namespace Verif.X64.P256

open Verif.Spec.P256 Verif.Touch

/-! ### What the calls touch -/

/-- The calls use arrays of `A` and `B`, and write arrays of `A`. -/
def Footprint (A B : List (W × ℕ)) (cs : List (Call W)) : Prop :=
  ∀ c ∈ cs, (∀ b ∈ wordsOf c.uses, b ∈ wordsOf (A ++ B)) ∧ ∀ b ∈ wordsOf [c.dest], b ∈ wordsOf A

theorem Call.uses_map {α β : Type} (f : α → β) (c : Call α) :
    (c.map f).uses = c.uses.map fun u => (f u.1, u.2) := by cases c <;> rfl

theorem AllTame.footprint {A B : List (W × ℕ)} {cs : List (Call W)} (h : AllTame A B cs) :
    Footprint A B cs := by
  intro c hc
  obtain ⟨c', rfl, hf, hb⟩ := h c hc
  refine ⟨fun b hm => ?_, fun b hm => Call.dest_words hf hb hm⟩
  rw [Call.uses_map] at hm
  obtain ⟨u, hu, hm⟩ := List.mem_flatMap.1 hm
  obtain ⟨u', hu', rfl⟩ := List.mem_map.1 hu
  obtain ⟨w, hw, rfl⟩ := List.mem_map.1 hm
  rw [List.mem_range] at hw
  unfold Call.fits at hf
  rw [Bool.and_eq_true] at hf
  have hi := List.all_eq_true.1 hf.1 u' hu'
  have := inside_lt hi
  dsimp only at hw ⊢
  rw [← waddr_inside hi hw]
  refine waddr_mem ?_
  unfold size
  omega

theorem Footprint.mono {A B A' B' : List (W × ℕ)} {cs : List (Call W)} (h : Footprint A B cs)
    (hA : A ⊆ A') (hB : B ⊆ A' ++ B') : Footprint A' B' cs := by
  have sub : ∀ {X Y : List (W × ℕ)}, X ⊆ Y → ∀ b ∈ wordsOf X, b ∈ wordsOf Y := fun h b hb => by
    obtain ⟨u, hu, hm⟩ := List.mem_flatMap.1 hb
    exact List.mem_flatMap.2 ⟨u, h hu, hm⟩
  refine fun c hc => ⟨fun b hb => sub (List.append_subset.2 ⟨List.Subset.trans hA (List.subset_append_left _ _), hB⟩) b
    ((h c hc).1 b hb), fun b hb => sub hA b ((h c hc).2 b hb)⟩

theorem Footprint.append {A B : List (W × ℕ)} {cs cs' : List (Call W)} (h : Footprint A B cs)
    (h' : Footprint A B cs') : Footprint A B (cs ++ cs') := fun c hc =>
  (List.mem_append.1 hc).elim (h c) (h' c)

theorem foot_mult (f : MultArrays W) (rrv : W) (x y : ℕ) (scalar : Bytes) :
    Footprint f.list [(rrv, 1)] (multCalls f rrv x y scalar) := by
  refine .append ((tame_point _ _ _ _).footprint.mono ?_ ?_) ((tame_mult _ _ _ _ _ _ _).footprint.mono ?_ ?_) <;>
    simp [MultArrays.list]

theorem foot_affine (r : W) (f : AffineArrays W) : Footprint ((r, 3) :: f.list) [] (affineCalls r f) :=
  (tame_toAffine _ _ _ _ _ _).footprint

theorem foot_init (f : InitArrays W) (table : W) :
    Footprint (f.list ++ [(table, 4736)]) [] (initCalls f table) := (tame_init _ _ _ _ _ _ _).footprint

theorem foot_base (f : BaseArrays W) (table : W) (scalar : Bytes) :
    Footprint f.list [(table, 4736)] (baseCalls f table scalar) := (tame_base _ _ _ _).footprint

theorem foot_inverse (f : InverseArrays W) (k : ℤ) : Footprint f.list [] (inverseCalls f k) := by
  refine (tame_ordInv _ _ _ _ _ _ _ _ ?_).footprint
  have : 0 < N := by decide
  split
  · exact Nat.mod_lt _ this
  · omega

/-! ### Methods -/

/-- The calls of a method after the initialization. -/
def Job.body (G : Globals) : Job → List (Call W)
  | .scalarMult f g x y s => scalarMultCalls f g G.rr x y s
  | .scalarBaseMult f g _ s => scalarBaseMultCalls f g G.table s
  | .combinedMult f h g _ x y b s => combinedMultCalls f h g G.table G.rr x y b s
  | .inverse f k => inverseCalls f k

/-- The arrays of the initialization. -/
def Job.init : Job → Option (InitArrays W)
  | .scalarMult _ _ _ _ _ | .inverse _ _ => none
  | .scalarBaseMult _ _ i _ | .combinedMult _ _ _ i _ _ _ _ => some i

/-- The global arrays a method reads. -/
def Job.reads (G : Globals) (j : Job) : List (W × ℕ) := if j.init.isSome then globals G else [(G.rr, 1)]

theorem Job.acts_eq (G : Globals) (j : Job) : j.acts G =
    (match j.init with | some i => [.once (initCalls i G.table)] | none => []) ++ (j.body G).map .call := by
  cases j <;> simp only [Job.acts, Job.init, Job.body, List.nil_append, List.cons_append]

theorem foot_body (G : Globals) (j : Job) : Footprint (arrays j) (j.reads G) (j.body G) := by
  cases j with
  | scalarMult f g x y s =>
    refine .append ((foot_mult _ _ _ _ _).mono ?_ ?_) ((foot_affine _ _).mono ?_ ?_) <;>
      simp [arrays, Job.reads, Job.init, MultArrays.list, AffineArrays.list]
  | scalarBaseMult f g i s =>
    refine .append ((foot_base _ _ _).mono ?_ ?_) ((foot_affine _ _).mono ?_ ?_) <;>
      simp [arrays, Job.reads, Job.init, BaseArrays.list, AffineArrays.list, globals]
  | combinedMult f h g i x y b s =>
    refine .append (.append (.append ((foot_base _ _ _).mono ?_ ?_) ((foot_mult _ _ _ _ _).mono ?_ ?_)) ?_)
      ((foot_affine _ _).mono ?_ ?_)
    case refine_5 =>
      intro c hc
      rw [List.mem_singleton] at hc
      subst hc
      have hs : ∀ X : List (W × ℕ), [(f.r, 3), (f.r, 3), (h.r, 3)] ⊆ X → ∀ b ∈ wordsOf [(f.r, 3), (f.r, 3), (h.r, 3)],
          b ∈ wordsOf X := fun X hX b hb => by
        obtain ⟨u, hu, hm⟩ := List.mem_flatMap.1 hb
        exact List.mem_flatMap.2 ⟨u, hX hu, hm⟩
      refine ⟨fun b hb => hs _ ?_ b hb, fun b hb => hs _ ?_ b ?_⟩
      · simp [arrays, BaseArrays.list, MultArrays.list]
      · simp [arrays, BaseArrays.list, MultArrays.list]
      · exact List.mem_flatMap.2 ⟨(f.r, 3), by simp, by
          obtain ⟨u, hu, hm⟩ := List.mem_flatMap.1 hb
          rw [List.mem_singleton] at hu
          subst hu
          exact hm⟩
    all_goals simp [arrays, Job.reads, Job.init, BaseArrays.list, MultArrays.list, AffineArrays.list, globals]
  | inverse f k =>
    exact (foot_inverse f k).mono (List.Subset.refl _) (List.nil_subset _)

theorem bytesAt_eq (m : W → W) (a : W) : bytesAt m a = bytes32 m a := by
  simp [bytesAt, bytes32, wordBytes, List.range_succ, nth]

/-- The values in memory that a method finds right are right when it has run. -/
theorem body_result {G : Globals} {j : Job} (hA : Apart (arrays j ++ globals G)) {m m' : W → W}
    (hrr : rd4 m G.rr = rr) (hT : j.init.isSome → MemTable m G.table (baseTable basePoint)) {junk : ℕ → St}
    (h : runs junk (j.body G) m = some m') : j.result m' = answer j := by
  have fin : ∀ {xo yo : W} {p : ℕ × ℕ}, (natOfBytes (bytes32 m' xo), natOfBytes (bytes32 m' yo)) = p →
      [natOfBytes (bytesAt m' xo), natOfBytes (bytesAt m' yo)] = [p.1, p.2] := fun e => by
    rw [bytesAt_eq, bytesAt_eq, ← e]
  cases j with
  | scalarMult f g x y s =>
    obtain ⟨m1, e1, r1, -⟩ := mem_scalarMult (f := f) (g := g) (rrv := G.rr)
      (hA.sub ((List.Sublist.refl _).append (.cons _ (.refl _)))) junk hrr x y s
    cases e1.symm.trans h
    exact fin r1
  | scalarBaseMult f g i s =>
    obtain ⟨m1, e1, r1, -⟩ := mem_scalarBaseMult (f := f) (g := g) (table := G.table)
      (hA.sub ((List.sublist_append_left _ _).append (.cons_cons _ (List.nil_sublist _)))) junk (hT rfl) s
    cases e1.symm.trans h
    exact fin r1
  | combinedMult f h' g i x y b s =>
    obtain ⟨m1, e1, r1, -⟩ := mem_combinedMult (f := f) (h := h') (g := g) (table := G.table) (rrv := G.rr)
      (hA.sub ((List.sublist_append_left _ _).append (.refl _))) junk (hT rfl) hrr x y b s
    cases e1.symm.trans h
    exact fin r1
  | inverse f k =>
    obtain ⟨m1, e1, r1, -⟩ := mem_inverse (f := f) (hA.sub (List.sublist_append_left _ _)) junk m k
    cases e1.symm.trans h
    change [natOfBytes (bytesAt m' f.xOut)] = [inverse k]
    rw [bytesAt_eq, r1]

theorem bytes_congr {m m' : W → W} {a : W} {L : List (W × ℕ)} (hm : (a, 1) ∈ L)
    (h : ∀ b ∈ wordsOf L, m b = m' b) : bytesAt m a = bytesAt m' a := by
  unfold bytesAt
  refine List.flatMap_congr fun i hi => ?_
  rw [h (nth a i) (mem_nth hm (by simpa using hi))]

theorem result_congr {j : Job} {m m' : W → W} (h : ∀ b ∈ wordsOf (arrays j), m b = m' b) :
    j.result m = j.result m' := by
  cases j <;> simp only [Job.result] <;>
    (first
      | rw [bytes_congr (a := _) (L := _) ?_ h, bytes_congr (a := _) (L := _) ?_ h]
      | rw [bytes_congr (a := _) (L := _) ?_ h]) <;>
    simp [arrays, AffineArrays.list, InverseArrays.list]

/-! ### A goroutine in a sequence of calls -/

/-- The goroutine does the calls `cs` after the current one, in a part `V` of memory of its own, of which
it writes `U`.  When it has done them, `Q` holds. -/
def Live (V U : W → Prop) (ctl : Ctl) (cs : List (Call W)) (m : W → W) (Q : (W → W) → Prop) : Prop :=
  ∃ n n', (∀ b, V b → m b = n b) ∧ Path V U ctl n n' ∧
    (∀ c ∈ cs, (∀ b ∈ wordsOf c.uses, V b) ∧ ∀ b ∈ wordsOf [c.dest], U b) ∧
    ∀ junk r, runs junk cs n' = some r → Q r

variable {V U : W → Prop} {ctl : Ctl} {cs : List (Call W)} {m m' : W → W} {Q : (W → W) → Prop}

theorem Live.congr (h : Live V U ctl cs m Q) (hm : ∀ b, V b → m' b = m b) : Live V U ctl cs m' Q := by
  obtain ⟨n, n', h1, h2⟩ := h
  exact ⟨n, n', fun b hb => (hm b hb).trans (h1 b hb), h2⟩

theorem Live.fits (h : Live V U ctl cs m Q) : Fits V U ctl := by
  obtain ⟨n, n', -, h2, -⟩ := h
  cases h2 with
  | done => trivial
  | step _ hf _ => exact hf

/-- A step in a call. -/
theorem Live.micro (h : Live V U ctl cs m Q) (hi : ctl ≠ .idle) :
    Live V U (micro ctl m).1 cs (micro ctl m).2 Q ∧ ∀ b, ¬ U b → (micro ctl m).2 b = m b := by
  have hf := h.fits
  obtain ⟨n, n', h1, h2, h3⟩ := h
  obtain ⟨a1, a2, a3⟩ := micro_local hf h1
  refine ⟨⟨_, n', a2, ?_, h3⟩, a3⟩
  cases h2 with
  | done => exact absurd rfl hi
  | step _ _ hp =>
    rw [a1]
    exact hp

/-- The start of the next call. -/
theorem Live.start {c : Call W} (h : Live V U .idle (c :: cs) m Q) (s : St) : Live V U (c.start s) cs m Q := by
  obtain ⟨n, n', h1, h2, h3, h4⟩ := h
  cases h2.idle
  obtain ⟨n'', e, hp⟩ := call_path c s n
  have hc := h3 c (by simp)
  refine ⟨n, n'', h1, hp.mono (fun b hb => hc.1 b hb) (fun b hb => hc.2 b hb),
    fun c hc => h3 c (List.mem_cons_of_mem _ hc), fun junk r hr => ?_⟩
  refine h4 (fun i => if i = 0 then s else junk (i - 1)) r ?_
  rw [runs]
  change (c.run s n).bind _ = _
  rw [e]
  exact hr

/-- The end. -/
theorem Live.done (h : Live V U .idle [] m Q) : ∃ n, (∀ b, V b → m b = n b) ∧ Q n := by
  obtain ⟨n, n', h1, h2, -, h4⟩ := h
  cases h2.idle
  exact ⟨n, h1, h4 (fun _ => ⟨0, 0, 0, 0, 0, 0, 0, 0, 0, 0, 0, 0, 0, 0, 0, false, false,
    fun _ => ⟨0, 0, 0, 0⟩, fun _ => 0, fun _ => 0, fun _ => 0⟩) n rfl⟩

/-! ### The invariant -/

/-- The words of a method's arrays, and of the table. -/
def Own (G : Globals) (j : Job) (b : W) : Prop := b ∈ wordsOf (arrays j) ∨ b ∈ wordsOf [(G.table, 4736)]

/-- The words of a method's arrays, and of the global arrays it reads. -/
def Sees (G : Globals) (j : Job) (b : W) : Prop := b ∈ wordsOf (arrays j) ∨ b ∈ wordsOf (j.reads G)

/-- Where a goroutine in a method is: before the initialization; in it; after it. -/
inductive Phase (G : Globals) (o : Once) (m : W → W) (j : Job) : Thread → Prop where
  | wait (i : InitArrays W) (hi : j.init = some i) :
    Phase G o m j ⟨.idle, .once (initCalls i G.table) :: (j.body G).map .call⟩
  | init (ctl : Ctl) (cs : List (Call W)) (hi : j.init.isSome) (ho : o = .busy)
    (h : Live (Own G j) (Own G j) ctl cs m fun r => MemTable r G.table (baseTable basePoint)) :
    Phase G o m j ⟨ctl, cs.map .call ++ .leave :: (j.body G).map .call⟩
  | run (ctl : Ctl) (cs : List (Call W)) (ho : j.init.isSome → o = .done)
    (h : Live (Sees G j) (· ∈ wordsOf (arrays j)) ctl cs m fun r => j.result r = answer j) :
    Phase G o m j ⟨ctl, cs.map .call⟩

/-- The goroutine is in the initialization. -/
def Thread.inits (t : Thread) : Prop := Act.leave ∈ t.todo

theorem leave_calls (cs : List (Call W)) : Act.leave ∉ cs.map Act.call := by simp

variable {G : Globals} {o : Once} {j : Job} {t : Thread}

theorem Phase.busy (h : Phase G o m j t) (hl : t.inits) : o = .busy := by
  cases h with
  | wait i hi => simp [Thread.inits] at hl
  | init ctl cs hi ho h => exact ho
  | run ctl cs ho h => exact absurd hl (leave_calls cs)

/-- What other goroutines and the rest of the program may do. -/
theorem Phase.congr (h : Phase G o m j t) {o' : Once} (hb : t.inits → o' = .busy)
    (hd : o = .done → o' = .done) (h1 : ∀ b ∈ wordsOf (arrays j), m' b = m b)
    (h2 : ∀ b ∈ wordsOf [(G.rr, 1)], m' b = m b)
    (h3 : t.inits ∨ o = .done → ∀ b ∈ wordsOf [(G.table, 4736)], m' b = m b) : Phase G o' m' j t := by
  cases h with
  | wait i hi => exact .wait i hi
  | init ctl cs hi ho h =>
    have hl : Thread.inits ⟨ctl, cs.map .call ++ .leave :: (j.body G).map .call⟩ := by simp [Thread.inits]
    exact .init ctl cs hi (hb hl) (h.congr fun b hb => hb.elim (h1 b) (h3 (.inl hl) b))
  | run ctl cs ho h =>
    refine .run ctl cs (fun hi => hd (ho hi)) (h.congr fun b hb => hb.elim (h1 b) fun hb => ?_)
    unfold Job.reads at hb
    split at hb
    next hi =>
      unfold globals at hb
      rw [show [(G.table, 4736), (G.rr, 1)] = [(G.table, 4736)] ++ [(G.rr, 1)] from rfl, wordsOf_append] at hb
      exact (List.mem_append.1 hb).elim (h3 (.inr (ho hi)) b) (h2 b)
    next => exact h2 b hb

theorem sees_foot {cs : List (Call W)} (hc : cs = j.body G) : ∀ c ∈ cs, (∀ b ∈ wordsOf c.uses, Sees G j b) ∧
    ∀ b ∈ wordsOf [c.dest], b ∈ wordsOf (arrays j) := by
  subst hc
  intro c hc
  obtain ⟨h1, h2⟩ := foot_body G j c hc
  refine ⟨fun b hb => ?_, h2⟩
  have := h1 b hb
  rw [wordsOf_append] at this
  exact List.mem_append.1 this

theorem init_arrays {i : InitArrays W} (hi : j.init = some i) : i.list.Sublist (arrays j) := by
  cases j <;> cases hi <;> exact List.sublist_append_right _ _

/-- The initialization starts. -/
theorem live_init {i : InitArrays W} (hi : j.init = some i) (hA : Apart (arrays j ++ globals G)) :
    Live (Own G j) (Own G j) .idle (initCalls i G.table) m fun r => MemTable r G.table (baseTable basePoint) := by
  refine ⟨m, m, fun _ _ => rfl, .done m, fun c hc => ?_, fun junk r hr => ?_⟩
  · have hs : ∀ b ∈ wordsOf (i.list ++ [(G.table, 4736)]), Own G j b := fun b hb => by
      rw [wordsOf_append] at hb
      exact (List.mem_append.1 hb).imp (fun h => (wordsOf_sublist (init_arrays hi)).subset h) id
    obtain ⟨h1, h2⟩ := foot_init i G.table c hc
    rw [List.append_nil] at h1
    exact ⟨fun b hb => hs b (h1 b hb), fun b hb => hs b (h2 b hb)⟩
  · obtain ⟨m1, e1, r1, -⟩ := mem_initCalls (f := i) (table := G.table)
      (hA.sub ((init_arrays hi).append (.cons_cons _ (List.nil_sublist _)))) junk m
    cases e1.symm.trans hr
    exact r1

/-- The method proper starts. -/
theorem live_body (hA : Apart (arrays j ++ globals G)) (hrr : rd4 m G.rr = rr)
    (hT : j.init.isSome → MemTable m G.table (baseTable basePoint)) :
    Live (Sees G j) (· ∈ wordsOf (arrays j)) .idle (j.body G) m fun r => j.result r = answer j :=
  ⟨m, m, fun _ _ => rfl, .done m, sees_foot rfl, fun _ _ hr => body_result hA hrr hT hr⟩

theorem Phase.start (hA : Apart (arrays j ++ globals G)) (hrr : rd4 m G.rr = rr) :
    Phase G o m j ⟨.idle, j.acts G⟩ := by
  rw [Job.acts_eq]
  cases hi : j.init with
  | none =>
    exact .run .idle (j.body G) (by simp [hi]) (live_body hA hrr (by simp [hi]))
  | some i => exact .wait i hi

/-- A goroutine that has nothing left to do returns the right result. -/
theorem Phase.result (h : Phase G o m j ⟨.idle, []⟩) : j.result m = answer j := by
  generalize ht : (⟨.idle, []⟩ : Thread) = t at h
  cases h with
  | wait i hi => cases ht
  | init ctl cs hi ho h =>
    have := congrArg Thread.todo ht
    simp at this
  | run ctl cs ho h =>
    obtain ⟨rfl, h2⟩ := Thread.mk.injEq .. ▸ ht
    have : cs = [] := by simpa using h2.symm
    subst this
    obtain ⟨n, h1, h2⟩ := h.done
    rw [← h2]
    exact result_congr fun b hb => h1 b (.inl hb)

/-- A step of a goroutine. -/
structure Stepped (G : Globals) (j : Job) (t t' : Thread) (o o' : Once) (m m' : W → W) : Prop where
  phase : Phase G o' m' j t'
  mem : ∀ b, b ∉ wordsOf (arrays j) → (t.inits → b ∉ wordsOf [(G.table, 4736)]) → m' b = m b
  once : (o' = o ∧ (t'.inits ↔ t.inits)) ∨ (o = .fresh ∧ o' = .busy ∧ t'.inits) ∨
    (t.inits ∧ ¬ t'.inits ∧ o' = .done ∧ MemTable m' G.table (baseTable basePoint))

theorem Phase.step (h : Phase G o m j t) (hn : t ≠ ⟨.idle, []⟩) (hA : Apart (arrays j ++ globals G))
    (hrr : rd4 m G.rr = rr) (hT : o = .done → MemTable m G.table (baseTable basePoint)) (s : St) :
    Stepped G j t (t.step s o m).1 o (t.step s o m).2.1 m (t.step s o m).2.2 := by
  cases h with
  | wait i hi =>
    cases o with
    | fresh =>
      exact ⟨.init .idle _ (by simp [hi]) rfl (live_init hi hA), fun _ _ _ => rfl, .inr (.inl ⟨rfl, rfl, by simp [Thread.inits, Thread.step]⟩)⟩
    | busy => exact ⟨.wait i hi, fun _ _ _ => rfl, .inl ⟨rfl, Iff.rfl⟩⟩
    | done =>
      refine ⟨.run .idle _ (fun _ => rfl) (live_body hA hrr fun _ => hT rfl), fun _ _ _ => rfl, .inl ⟨rfl, ?_⟩⟩
      simp [Thread.inits, Thread.step]
  | init ctl cs hi ho h =>
    have hl : ∀ c cs, Thread.inits ⟨c, cs ++ .leave :: (j.body G).map .call⟩ := by simp [Thread.inits]
    by_cases hc : ctl = .idle
    · subst hc
      cases cs with
      | nil =>
        obtain ⟨n, h1, h2⟩ := h.done
        have hT' : MemTable m G.table (baseTable basePoint) := h2.congr fun b hb => h1 b (.inr hb)
        exact ⟨.run .idle _ (fun _ => rfl) (live_body hA hrr fun _ => hT'), fun _ _ _ => rfl,
          .inr (.inr ⟨hl _ _, leave_calls _, rfl, hT'⟩)⟩
      | cons c cs =>
        exact ⟨.init _ cs hi ho (h.start s), fun _ _ _ => rfl, .inl ⟨rfl, by simp [Thread.inits, Thread.step]⟩⟩
    · obtain ⟨h1, h2⟩ := h.micro hc
      have e : Thread.step ⟨ctl, cs.map .call ++ .leave :: (j.body G).map .call⟩ s o m =
          (⟨(P256.micro ctl m).1, cs.map .call ++ .leave :: (j.body G).map .call⟩, o, (P256.micro ctl m).2) := by
        cases ctl with
        | idle => exact absurd rfl hc
        | _ => rfl
      rw [e]
      exact ⟨.init _ cs hi ho h1, fun b hb hb' => h2 b fun h => h.elim hb (hb' (hl _ _)), .inl ⟨rfl, Iff.rfl⟩⟩
  | run ctl cs ho h =>
    by_cases hc : ctl = .idle
    · subst hc
      cases cs with
      | nil => exact absurd rfl hn
      | cons c cs =>
        exact ⟨.run _ cs ho (h.start s), fun _ _ _ => rfl, .inl ⟨rfl, by simp [Thread.inits, Thread.step]⟩⟩
    · obtain ⟨h1, h2⟩ := h.micro hc
      have e : Thread.step ⟨ctl, cs.map .call⟩ s o m =
          (⟨(P256.micro ctl m).1, cs.map .call⟩, o, (P256.micro ctl m).2) := by
        cases ctl with
        | idle => exact absurd rfl hc
        | _ => rfl
      rw [e]
      exact ⟨.run _ cs ho h1, fun b hb _ => h2 b hb, .inl ⟨rfl, Iff.rfl⟩⟩

/-- The invariant of all histories. -/
structure Inv {ι : Type} (G : Globals) (y : Sys ι) : Prop where
  rr : rd4 y.mem G.rr = rr
  table : y.once = .done → MemTable y.mem G.table (baseTable basePoint)
  phase : ∀ {i j t}, y.running i = some (j, t) → Phase G y.once y.mem j t
  apart : ∀ {i j t}, y.running i = some (j, t) → Apart (arrays j ++ globals G)
  disj : ∀ {i k j t j' t'}, i ≠ k → y.running i = some (j, t) → y.running k = some (j', t') →
    ∀ b ∈ wordsOf (arrays j), b ∉ wordsOf (arrays j')
  one : ∀ {i k j t j' t'}, y.running i = some (j, t) → y.running k = some (j', t') → t.inits → t'.inits → i = k
  log : ∀ e ∈ y.log, e.2 = answer e.1

theorem apart_globals {L : List (W × ℕ)} (hA : Apart (L ++ globals G)) {b : W} (hb : b ∈ wordsOf L) :
    b ∉ wordsOf [(G.table, 4736)] ∧ b ∉ wordsOf [(G.rr, 1)] := by
  unfold Apart globals at hA
  rw [wordsOf_append, List.nodup_append'] at hA
  have h := fun h' => hA.2.2 hb h'
  rw [show [(G.table, 4736), (G.rr, 1)] = [(G.table, 4736)] ++ [(G.rr, 1)] from rfl, wordsOf_append] at h
  exact ⟨fun hm => h (List.mem_append_left _ hm), fun hm => h (List.mem_append_right _ hm)⟩

theorem table_rr {L : List (W × ℕ)} (hA : Apart (L ++ globals G)) {b : W} (hb : b ∈ wordsOf [(G.rr, 1)]) :
    b ∉ wordsOf [(G.table, 4736)] := by
  unfold Apart globals at hA
  rw [show L ++ [(G.table, 4736), (G.rr, 1)] = (L ++ [(G.table, 4736)]) ++ [(G.rr, 1)] by simp,
    wordsOf_append, wordsOf_append, List.nodup_append'] at hA
  exact fun hm => hA.2.2 (List.mem_append_right _ hm) hb

variable {ι : Type} [DecidableEq ι] {y : Sys ι}

omit [DecidableEq ι] in
theorem Inv.of_initial (h : Initial G y) : Inv G y := by
  obtain ⟨h1, h2, h3, h4⟩ := h
  refine ⟨h1, fun h => ?_, fun h => ?_, fun h => ?_, fun _ h => ?_, fun h => ?_, fun e he => ?_⟩
  · rw [h2] at h; cases h
  all_goals first | (rw [h3] at h; cases h) | (rw [h4] at he; cases he)

theorem upd_self {β : Type} (f : ι → β) (i : ι) (v : β) : upd f i v i = v := if_pos rfl

theorem upd_ne {β : Type} (f : ι → β) {i k : ι} (v : β) (h : k ≠ i) : upd f i v k = f k := if_neg h

theorem Inv.call (h : Inv G y) {i : ι} {j : Job} (he : Allowed G y (.call i j)) :
    Inv G (y.next G (.call i j)) := by
  obtain ⟨e1, e2, e3⟩ := he
  have hnew : ∀ {k j' t}, (y.next G (.call i j)).running k = some (j', t) →
      (k = i ∧ j' = j ∧ t = ⟨.idle, j.acts G⟩) ∨ (k ≠ i ∧ y.running k = some (j', t)) := by
    intro k j' t hk
    change upd y.running i _ k = _ at hk
    by_cases hki : k = i
    · subst hki
      rw [upd_self] at hk
      cases hk
      exact .inl ⟨rfl, rfl, rfl⟩
    · rw [upd_ne _ _ hki] at hk
      exact .inr ⟨hki, hk⟩
  have hni : ¬ Thread.inits ⟨.idle, j.acts G⟩ := by
    unfold Thread.inits
    rw [Job.acts_eq]
    cases j.init <;> simp
  refine ⟨h.rr, h.table, fun hk => ?_, fun hk => ?_, fun hik hk hk' => ?_, fun hk hk' hl hl' => ?_, h.log⟩
  · rcases hnew hk with ⟨-, rfl, rfl⟩ | ⟨-, hk⟩
    · exact .start e2 h.rr
    · exact h.phase hk
  · rcases hnew hk with ⟨-, rfl, rfl⟩ | ⟨-, hk⟩
    · exact e2
    · exact h.apart hk
  · rcases hnew hk with ⟨rfl, rfl, rfl⟩ | ⟨-, hk1⟩ <;> rcases hnew hk' with ⟨rfl, rfl, rfl⟩ | ⟨-, hk1'⟩
    · exact absurd rfl hik
    · exact e3 _ _ _ hk1'
    · exact fun b hb hb' => e3 _ _ _ hk1 b hb' hb
    · exact h.disj hik hk1 hk1'
  · rcases hnew hk with ⟨rfl, rfl, rfl⟩ | ⟨-, hk⟩ <;> rcases hnew hk' with ⟨rfl, rfl, rfl⟩ | ⟨-, hk'⟩
    · rfl
    · exact absurd hl hni
    · exact absurd hl' hni
    · exact h.one hk hk' hl hl'

theorem Inv.write (h : Inv G y) {a v : W} (he : Allowed G y (.write a v)) : Inv G (y.next G (.write a v)) := by
  obtain ⟨e1, e2⟩ := he
  have hg : ∀ b ∈ wordsOf (globals G), upd y.mem a v b = y.mem b := fun b hb =>
    upd_ne _ _ fun e => e1 (e ▸ hb)
  have hg' : ∀ b ∈ wordsOf [(G.table, 4736)], upd y.mem a v b = y.mem b := fun b hb =>
    hg b ((wordsOf_sublist (.cons_cons _ (List.nil_sublist _))).subset hb)
  have hr' : ∀ b ∈ wordsOf [(G.rr, 1)], upd y.mem a v b = y.mem b := fun b hb =>
    hg b ((wordsOf_sublist (.cons _ (.refl _))).subset hb)
  refine ⟨(rd4_congr hr').trans h.rr, fun ho => (h.table ho).congr hg', fun hk => ?_, h.apart, h.disj, h.one,
    h.log⟩
  exact (h.phase hk).congr (fun hl => (h.phase hk).busy hl) id
    (fun b hb => upd_ne _ _ fun e => e2 _ _ _ hk (e ▸ hb)) hr' fun _ => hg'

theorem Inv.step (h : Inv G y) (i : ι) (s : St) : Inv G (y.next G (.step i s)) := by
  cases hi : y.running i with
  | none =>
    have : y.next G (.step i s) = y := by simp only [Sys.next, hi]
    rwa [this]
  | some jt =>
    obtain ⟨j, t⟩ := jt
    have hA := h.apart hi
    by_cases ht : t = ⟨.idle, []⟩
    · subst ht
      have e : y.next G (.step i s) =
          { y with running := upd y.running i none, log := (j, j.result y.mem) :: y.log } := by
        simp only [Sys.next, hi]
      rw [e]
      have hold : ∀ {k j' t}, upd y.running i none k = some (j', t) → y.running k = some (j', t) := by
        intro k j' t hk
        by_cases hki : k = i
        · subst hki
          rw [upd_self] at hk
          cases hk
        · rwa [upd_ne _ _ hki] at hk
      refine ⟨h.rr, h.table, fun hk => h.phase (hold hk), fun hk => h.apart (hold hk),
        fun hik hk hk' => h.disj hik (hold hk) (hold hk'), fun hk hk' => h.one (hold hk) (hold hk'),
        fun e he => ?_⟩
      rcases List.mem_cons.1 he with rfl | he
      · exact (h.phase hi).result
      · exact h.log e he
    · have st := (h.phase hi).step ht hA h.rr h.table s
      have e : y.next G (.step i s) =
          { y with
            running := upd y.running i (some (j, (t.step s y.once y.mem).1))
            once := (t.step s y.once y.mem).2.1
            mem := (t.step s y.once y.mem).2.2 } := by
        simp only [Sys.next, hi]
      rw [e]
      generalize (t.step s y.once y.mem).1 = t' at st ⊢
      generalize (t.step s y.once y.mem).2.1 = o' at st ⊢
      generalize (t.step s y.once y.mem).2.2 = m' at st ⊢
      have hnew : ∀ {k j' t''}, upd y.running i (some (j, t')) k = some (j', t'') →
          (k = i ∧ j' = j ∧ t'' = t') ∨ (k ≠ i ∧ y.running k = some (j', t'')) := by
        intro k j' t'' hk
        by_cases hki : k = i
        · subst hki
          rw [upd_self] at hk
          cases hk
          exact .inl ⟨rfl, rfl, rfl⟩
        · rw [upd_ne _ _ hki] at hk
          exact .inr ⟨hki, hk⟩
      have hrr : ∀ b ∈ wordsOf [(G.rr, 1)], m' b = y.mem b := fun b hb =>
        st.mem b (fun hm => (apart_globals hA hm).2 hb) fun _ => table_rr hA hb
      have htab : ¬ t.inits → ∀ b ∈ wordsOf [(G.table, 4736)], m' b = y.mem b := fun hl b hb =>
        st.mem b (fun hm => (apart_globals hA hm).1 hb) fun h => absurd h hl
      have hninit : y.once ≠ .busy → ¬ t.inits := fun ho hl => ho ((h.phase hi).busy hl)
      -- the other goroutine in the initialization would be this one
      have hother : ∀ {k j' t''}, k ≠ i → y.running k = some (j', t'') → t''.inits → ¬ t.inits :=
        fun hki hk hl hl' => hki (h.one hk hi hl hl')
      refine ⟨(rd4_congr hrr).trans h.rr, fun ho => ?_, fun hk => ?_, fun hk => ?_, fun hik hk hk' => ?_,
        fun hk hk' hl hl' => ?_, h.log⟩
      · change o' = .done at ho
        rcases st.once with ⟨rfl, -⟩ | ⟨-, hb, -⟩ | ⟨-, -, -, hT⟩
        · exact (h.table ho).congr (htab (hninit (by rw [ho]; nofun)))
        · rw [ho] at hb; cases hb
        · exact hT
      · rcases hnew hk with ⟨-, rfl, rfl⟩ | ⟨hki, hk⟩
        · exact st.phase
        · have hp := h.phase hk
          refine hp.congr (fun hl => ?_) (fun ho => ?_) (fun b hb => ?_) hrr fun hc => ?_
          · change o' = .busy
            rcases st.once with ⟨rfl, -⟩ | ⟨-, hb, -⟩ | ⟨hl', -⟩
            · exact hp.busy hl
            · exact hb
            · exact absurd hl' (hother hki hk hl)
          · change o' = .done
            rcases st.once with ⟨rfl, -⟩ | ⟨hf, -⟩ | ⟨-, -, hd, -⟩
            · exact ho
            · rw [ho] at hf; cases hf
            · exact hd
          · exact st.mem b (h.disj hki hk hi b hb) fun _ => (apart_globals (h.apart hk) hb).1
          · exact htab (hc.elim (hother hki hk) fun ho => hninit (by rw [ho]; nofun))
      · rcases hnew hk with ⟨-, rfl, rfl⟩ | ⟨hki, hk⟩
        · exact hA
        · exact h.apart hk
      · rcases hnew hk with ⟨rfl, rfl, rfl⟩ | ⟨-, hk1⟩ <;> rcases hnew hk' with ⟨rfl, rfl, rfl⟩ | ⟨-, hk1'⟩
        · exact absurd rfl hik
        · exact h.disj hik hi hk1'
        · exact h.disj hik hk1 hi
        · exact h.disj hik hk1 hk1'
      · have key : t'.inits → ∀ {k j' t''}, k ≠ i → y.running k = some (j', t'') → ¬ t''.inits := by
          intro hl k j' t'' hki hk hl'
          rcases st.once with ⟨-, hiff⟩ | ⟨hf, -⟩ | ⟨-, hl'', -⟩
          · exact hother hki hk hl' (hiff.1 hl)
          · have := (h.phase hk).busy hl'
            rw [hf] at this
            cases this
          · exact hl'' hl
        rcases hnew hk with ⟨rfl, rfl, rfl⟩ | ⟨hki, hk1⟩ <;>
          rcases hnew hk' with ⟨rfl, rfl, rfl⟩ | ⟨hki', hk1'⟩
        · rfl
        · exact absurd hl' (key hl hki' hk1')
        · exact absurd hl (key hl' hki hk1)
        · exact h.one hk1 hk1' hl hl'

theorem Inv.of_reachable (h : Reachable G y) : Inv G y := by
  induction h with
  | initial h => exact .of_initial h
  | next _ e he ih =>
    cases e with
    | call i j => exact ih.call he
    | step i s => exact ih.step i s
    | write a v => exact ih.write he

end Verif.X64.P256
