/-
The methods of sm2/p256_amd64.go in any number of goroutines: every call returns.
-/
import Verif.Lemmas.P256Sched

namespace Verif.X64.P256

open Verif.Spec.P256

/-! ### The steps left in a call -/

/-- The call ends after `k` steps. -/
def Ends : ℕ → Ctl → (W → W) → Prop
  | 0, c, _ => c = .idle
  | k + 1, c, m => c ≠ .idle ∧ Ends k (micro c m).1 (micro c m).2

variable {V U : W → Prop} {ctl : Ctl} {cs : List (Call W)} {m m' : W → W} {Q : (W → W) → Prop}

theorem Path.ends (h : Path V U ctl m m') : ∃ k, ∀ n, (∀ b, V b → n b = m b) → Ends k ctl n := by
  induction h with
  | done => exact ⟨0, fun _ _ => rfl⟩
  | step hi hf _ ih =>
    obtain ⟨k, hk⟩ := ih
    refine ⟨k + 1, fun n hn => ⟨hi, ?_⟩⟩
    obtain ⟨a1, a2, -⟩ := micro_local hf hn
    rw [a1]
    exact hk _ a2

theorem Live.ends (h : Live V U ctl cs m Q) : ∃ k, ∀ n, (∀ b, V b → n b = m b) → Ends k ctl n := by
  obtain ⟨n, n', h1, h2, -⟩ := h
  obtain ⟨k, hk⟩ := h2.ends
  exact ⟨k, fun n2 hn => hk n2 fun b hb => (hn b hb).trans (h1 b hb)⟩

theorem Ends.unique {k l : ℕ} (h : Ends k ctl m) (h' : Ends l ctl m) : k = l := by
  induction k generalizing l ctl m with
  | zero =>
    cases l with
    | zero => rfl
    | succ l => exact absurd h h'.1
  | succ k ih =>
    cases l with
    | zero => exact absurd h' h.1
    | succ l => rw [ih h.2 h'.2]

/-- The words that matter to a goroutine. -/
def Matters (G : Globals) (o : Once) (j : Job) (t : Thread) (b : W) : Prop :=
  b ∈ wordsOf (arrays j) ∨ b ∈ wordsOf [(G.rr, 1)] ∨ ((t.inits ∨ o = .done) ∧ b ∈ wordsOf [(G.table, 4736)])

variable {G : Globals} {o o' : Once} {j : Job} {t t' : Thread}

theorem Phase.ends (h : Phase G o m j t) :
    ∃ k, ∀ n, (∀ b, Matters G o j t b → n b = m b) → Ends k t.ctl n := by
  cases h with
  | wait i hi => exact ⟨0, fun _ _ => rfl⟩
  | init ctl cs hi ho h =>
    obtain ⟨k, hk⟩ := h.ends
    refine ⟨k, fun n hn => hk n fun b hb => hn b ?_⟩
    exact hb.imp id fun hb => .inr ⟨.inl (by simp [Thread.inits]), hb⟩
  | run ctl cs ho h =>
    obtain ⟨k, hk⟩ := h.ends
    refine ⟨k, fun n hn => hk n fun b hb => hn b (hb.imp id fun hb => ?_)⟩
    unfold Job.reads at hb
    split at hb
    next hi =>
      unfold globals at hb
      rw [show [(G.table, 4736), (G.rr, 1)] = [(G.table, 4736)] ++ [(G.rr, 1)] from rfl, wordsOf_append] at hb
      exact (List.mem_append.1 hb).elim (fun hb => .inr ⟨.inr (ho hi), hb⟩) .inl
    next => exact .inl hb

/-! ### The rank of a goroutine -/

/-- The part of a method a goroutine is in. -/
def part : List Act → ℕ
  | [] => 0
  | .call _ :: l => part l
  | .once _ :: l => part l + 2
  | .leave :: l => part l + 1

/-- What a goroutine has left to do: part, calls, and steps in the current call. -/
def Rank (t : Thread) (m : W → W) (r : ℕ ×ₗ ℕ ×ₗ ℕ) : Prop :=
  ∃ k, Ends k t.ctl m ∧ r = toLex (part t.todo, toLex (t.todo.length, k))

theorem Phase.rank (h : Phase G o m j t) : ∃ r, Rank t m r := by
  obtain ⟨k, hk⟩ := h.ends
  exact ⟨_, k, hk m fun _ _ => rfl, rfl⟩

theorem Phase.rank_congr (h : Phase G o m j t) (hm : ∀ b, Matters G o j t b → m' b = m b) {r : ℕ ×ₗ ℕ ×ₗ ℕ}
    (hr : Rank t m r) : Rank t m' r := by
  obtain ⟨k, hk⟩ := h.ends
  obtain ⟨k', e, rfl⟩ := hr
  cases (hk m fun _ _ => rfl).unique e
  exact ⟨k, hk m' hm, rfl⟩

/-- The goroutine waits for another one that is in the initialization. -/
def Blocked (t : Thread) (o : Once) : Prop := (∃ cs, Act.once cs ∈ t.todo) ∧ o = .busy

theorem part_calls (cs : List (Call W)) (l : List Act) : part (cs.map .call ++ l) = part l := by
  induction cs with
  | nil => rfl
  | cons c cs ih => exact ih

theorem part_body (cs : List (Call W)) : part (cs.map .call) = 0 := by
  have := part_calls cs []
  rwa [List.append_nil] at this

theorem part_once (cs : List (Call W)) (cs' : List (Call W)) : part (.once cs :: cs'.map .call) = 2 := by
  change part (cs'.map .call) + 2 = 2
  rw [part_body]

theorem part_leave (cs : List (Call W)) (cs' : List (Call W)) :
    part (cs.map .call ++ .leave :: cs'.map .call) = 1 := by
  rw [part_calls]
  change part (cs'.map .call) + 1 = 1
  rw [part_body]

theorem rank_lt {p l k p' l' k' : ℕ} (h : p' < p ∨ (p' = p ∧ (l' < l ∨ (l' = l ∧ k' < k)))) :
    (toLex (p', toLex (l', k')) : ℕ ×ₗ ℕ ×ₗ ℕ) < toLex (p, toLex (l, k)) := by
  rw [Prod.Lex.toLex_lt_toLex]
  refine h.imp id fun ⟨h1, h2⟩ => ⟨h1, ?_⟩
  rw [Prod.Lex.toLex_lt_toLex]
  exact h2

/-- A step of a goroutine that is not blocked leaves less to do. -/
theorem Phase.drop (h : Phase G o m j t) (hn : t ≠ ⟨.idle, []⟩) (hA : Apart (arrays j ++ globals G))
    (hrr : rd4 m G.rr = rr) (hT : o = .done → MemTable m G.table (baseTable basePoint)) (s : St)
    {r : ℕ ×ₗ ℕ ×ₗ ℕ} (hr : Rank t m r) (hb : ¬ Blocked t o) :
    ∃ r' < r, Rank (t.step s o m).1 (t.step s o m).2.2 r' := by
  obtain ⟨k', hk'⟩ := (h.step hn hA hrr hT s).phase.ends
  replace hk' := hk' _ fun _ _ => rfl
  obtain ⟨k, hk, rfl⟩ := hr
  refine ⟨_, ?_, k', hk', rfl⟩
  by_cases hc : t.ctl = .idle
  · refine rank_lt ?_
    cases h with
    | wait i hi =>
      clear hk' hk
      revert hb
      generalize j.body G = B
      generalize initCalls i G.table = I
      intro hb
      cases o with
      | fresh =>
        left
        rw [part_once]
        change part (I.map .call ++ .leave :: B.map .call) < 2
        rw [part_leave]
        decide
      | busy => exact absurd ⟨⟨_, List.mem_cons_self ..⟩, rfl⟩ hb
      | done =>
        left
        rw [part_once]
        change part (B.map .call) < 2
        rw [part_body]
        decide
    | init ctl cs hi ho h =>
      cases hc
      clear hk' hk hb hn h
      generalize j.body G = B
      cases cs with
      | nil =>
        left
        rw [part_leave]
        change part (B.map .call) < 1
        rw [part_body]
        decide
      | cons c cs =>
        right
        refine ⟨?_, .inl ?_⟩
        · rw [part_leave]
          change part (cs.map .call ++ .leave :: B.map .call) = 1
          rw [part_leave]
        · change (cs.map Act.call ++ Act.leave :: B.map Act.call).length < _
          simp
    | run ctl cs ho h =>
      cases hc
      cases cs with
      | nil => exact absurd rfl hn
      | cons c cs =>
        right
        refine ⟨?_, .inl ?_⟩
        · rw [part_body]
          change part (cs.map .call) = 0
          rw [part_body]
        · change (cs.map Act.call).length < _
          simp
  · have e : t.step s o m = (⟨(micro t.ctl m).1, t.todo⟩, o, (micro t.ctl m).2) := by
      obtain ⟨ctl, todo⟩ := t
      cases ctl with
      | idle => exact absurd rfl hc
      | _ => rfl
    rw [e] at hk' ⊢
    refine rank_lt (.inr ⟨rfl, .inr ⟨rfl, ?_⟩⟩)
    cases k with
    | zero => exact absurd hk hc
    | succ k =>
      cases hk.2.unique hk'
      exact Nat.lt_succ_self _

theorem Phase.blocked (h : Phase G o m j t) (hb : Blocked t o) (s : St) : t.step s o m = (t, o, m) := by
  obtain ⟨⟨cs, hc⟩, rfl⟩ := hb
  cases h with
  | wait i hi => rfl
  | init ctl cs' hi ho h => simp at hc
  | run ctl cs' ho h => simp at hc

theorem Phase.not_done (h : Phase G o m j t) (hl : t.inits) : t ≠ ⟨.idle, []⟩ := by
  rintro rfl
  cases hl

/-! ### Histories -/

variable {ι : Type} [DecidableEq ι] {y : Sys ι}

theorem next_return {i : ι} {s : St} (hi : y.running i = some (j, ⟨.idle, []⟩)) : y.next G (.step i s) =
    { y with running := upd y.running i none, log := (j, j.result y.mem) :: y.log } := by
  simp only [Sys.next, hi]

theorem next_step {i : ι} {s : St} (hi : y.running i = some (j, t)) (ht : t ≠ ⟨.idle, []⟩) :
    y.next G (.step i s) =
      { y with
        running := upd y.running i (some (j, (t.step s y.once y.mem).1))
        once := (t.step s y.once y.mem).2.1
        mem := (t.step s y.once y.mem).2.2 } := by
  simp only [Sys.next, hi]

/-- Other goroutines, and the rest of the program, leave a goroutine alone. -/
theorem Inv.frame (h : Inv G y) {e : Event ι} (he : Allowed G y e) {i : ι}
    (hi : y.running i = some (j, t)) (hne : ∀ s, e ≠ .step i s) :
    (y.next G e).running i = some (j, t) ∧ ∀ b, Matters G y.once j t b → (y.next G e).mem b = y.mem b := by
  have hA := h.apart hi
  cases e with
  | call k j' =>
    obtain ⟨e1, -⟩ := he
    have hki : i ≠ k := by
      rintro rfl
      rw [hi] at e1
      cases e1
    exact ⟨(upd_ne _ _ hki).trans hi, fun _ _ => rfl⟩
  | write a v =>
    obtain ⟨e1, e2⟩ := he
    refine ⟨hi, fun b hb => upd_ne _ _ ?_⟩
    rintro rfl
    rcases hb with hb | hb | ⟨-, hb⟩
    · exact e2 _ _ _ hi hb
    · exact e1 ((wordsOf_sublist (.cons _ (.refl _))).subset hb)
    · exact e1 ((wordsOf_sublist (.cons_cons _ (List.nil_sublist _))).subset hb)
  | step k s =>
    have hki : i ≠ k := by
      rintro rfl
      exact hne s rfl
    cases hk : y.running k with
    | none =>
      have : y.next G (.step k s) = y := by simp only [Sys.next, hk]
      rw [this]
      exact ⟨hi, fun _ _ => rfl⟩
    | some jt =>
      obtain ⟨j', t'⟩ := jt
      by_cases ht : t' = ⟨.idle, []⟩
      · subst ht
        rw [next_return hk]
        exact ⟨(upd_ne _ _ hki).trans hi, fun _ _ => rfl⟩
      · rw [next_step hk ht]
        have hA' := h.apart hk
        have st := (h.phase hk).step ht hA' h.rr h.table s
        refine ⟨(upd_ne _ _ hki).trans hi, fun b hb => ?_⟩
        rcases hb with hb | hb | ⟨hc, hb⟩
        · exact st.mem b (h.disj hki hi hk b hb) fun _ => (apart_globals hA hb).1
        · exact st.mem b (fun hm => (apart_globals hA' hm).2 hb) fun _ => table_rr hA hb
        · refine st.mem b (fun hm => (apart_globals hA' hm).1 hb) fun hl => ?_
          rcases hc with hc | hc
          · exact absurd (h.one hi hk hc hl) hki
          · have := (h.phase hk).busy hl
            rw [hc] at this
            cases this

/-- The initialization is in progress only if a goroutine is in it. -/
def SomeInit (y : Sys ι) : Prop :=
  y.once = .busy → ∃ i j t, y.running i = some (j, t) ∧ Thread.inits t

theorem SomeInit.next (h : Inv G y) (hs : SomeInit y) {e : Event ι} (he : Allowed G y e) :
    SomeInit (y.next G e) := by
  intro hb
  -- the goroutine that was in the initialization, if it did not do this step
  have keep : ∀ {i j t}, y.running i = some (j, t) → t.inits → (∀ s, e ≠ .step i s) →
      ∃ i j t, (y.next G e).running i = some (j, t) ∧ Thread.inits t :=
    fun hi hl hne => ⟨_, _, _, (h.frame he hi hne).1, hl⟩
  cases e with
  | call k j =>
    obtain ⟨i, j', t, hi, hl⟩ := hs hb
    exact keep hi hl nofun
  | write a v =>
    obtain ⟨i, j', t, hi, hl⟩ := hs hb
    exact keep hi hl nofun
  | step k s =>
    cases hk : y.running k with
    | none =>
      have : y.next G (.step k s) = y := by simp only [Sys.next, hk]
      rw [this] at hb ⊢
      exact hs hb
    | some jt =>
      obtain ⟨j', t'⟩ := jt
      by_cases ht : t' = ⟨.idle, []⟩
      · subst ht
        rw [next_return hk] at hb
        obtain ⟨i, j, t, hi, hl⟩ := hs hb
        refine keep hi hl fun s' hs' => ?_
        cases hs'
        cases hi.symm.trans hk
        cases hl
      · have st := (h.phase hk).step ht (h.apart hk) h.rr h.table s
        by_cases hl : Thread.inits (t'.step s y.once y.mem).1
        · rw [next_step hk ht]
          exact ⟨k, _, _, upd_self _ _ _, hl⟩
        · rw [next_step hk ht] at hb
          change (t'.step s y.once y.mem).2.1 = .busy at hb
          rcases st.once with ⟨ho, hiff⟩ | ⟨-, -, hl'⟩ | ⟨-, -, ho, -⟩
          · obtain ⟨i, j, t, hi, hl'⟩ := hs (ho ▸ hb)
            refine keep hi hl' fun s' hs' => ?_
            cases hs'
            cases hi.symm.trans hk
            exact hl (hiff.2 hl')
          · exact absurd hl' hl
          · rw [ho] at hb
            cases hb

theorem done_next (h : Inv G y) (e : Event ι) (ho : y.once = .done) : (y.next G e).once = .done := by
  cases e with
  | call k j => exact ho
  | write a v => exact ho
  | step k s =>
    cases hk : y.running k with
    | none => simpa only [Sys.next, hk] using ho
    | some jt =>
      obtain ⟨j', t'⟩ := jt
      by_cases ht : t' = ⟨.idle, []⟩
      · subst ht
        rw [next_return hk]
        exact ho
      · have st := (h.phase hk).step ht (h.apart hk) h.rr h.table s
        rw [next_step hk ht]
        change (t'.step s y.once y.mem).2.1 = .done
        rcases st.once with ⟨ho', -⟩ | ⟨hf, -⟩ | ⟨-, -, ho', -⟩
        · rw [ho', ho]
        · rw [ho] at hf
          cases hf
        · exact ho'

section
variable {y : ℕ → Sys ι} {e : ℕ → Event ι} (H : History G y e)

include H

theorem _root_.Verif.Spec.P256.History.inv (n : ℕ) : Inv G (y n) := by
  induction n with
  | zero => exact .of_initial H.initial
  | succ n ih =>
    rw [H.next n]
    have he := H.allowed n
    cases hev : e n with
    | call i j => exact ih.call (hev ▸ he)
    | step i s => exact ih.step i s
    | write a v => exact ih.write (hev ▸ he)

theorem _root_.Verif.Spec.P256.History.someInit (n : ℕ) : SomeInit (y n) := by
  induction n with
  | zero =>
    intro hb
    rw [H.initial.2.1] at hb
    cases hb
  | succ n ih =>
    rw [H.next n]
    exact ih.next (H.inv n) (H.allowed n)

theorem _root_.Verif.Spec.P256.History.done {n n' : ℕ} (hn : n ≤ n') (ho : (y n).once = .done) : (y n').once = .done := by
  induction n', hn using Nat.le_induction with
  | base => exact ho
  | succ k _ ih =>
    rw [H.next k]
    exact done_next (H.inv k) _ ih

/-- The goroutine is where it was. -/
def At (y : Sys ι) (i : ι) (j : Job) (t : Thread) (r : ℕ ×ₗ ℕ ×ₗ ℕ) : Prop :=
  y.running i = some (j, t) ∧ Rank t y.mem r

theorem _root_.Verif.Spec.P256.History.frame {n : ℕ} {i : ι} {r : ℕ ×ₗ ℕ ×ₗ ℕ} (h : At (y n) i j t r) (hne : ∀ s, e n ≠ .step i s) :
    At (y (n + 1)) i j t r := by
  obtain ⟨h1, h2⟩ := (H.inv n).frame (H.allowed n) h.1 hne
  rw [← H.next n] at h1 h2
  exact ⟨h1, ((H.inv n).phase h.1).rank_congr h2 h.2⟩

/-- The goroutine does its next step. -/
theorem _root_.Verif.Spec.P256.History.advance (F : Fair y e) {n : ℕ} {i : ι} {r : ℕ ×ₗ ℕ ×ₗ ℕ} (h : At (y n) i j t r) :
    ∃ n' ≥ n, (∃ s, e n' = .step i s) ∧ At (y n') i j t r := by
  obtain ⟨n1, hn1, s, hs⟩ := F i n (by rw [h.1]; nofun)
  obtain ⟨d, rfl⟩ := Nat.exists_eq_add_of_le hn1
  induction d generalizing n with
  | zero => exact ⟨n, Nat.le_refl _, ⟨s, hs⟩, h⟩
  | succ d ih =>
    by_cases hc : ∃ s, e n = .step i s
    · exact ⟨n, Nat.le_refl _, hc, h⟩
    · obtain ⟨n', hn', h'⟩ := ih (H.frame h fun s hs => hc ⟨s, hs⟩) (by omega)
        (by rw [show n + 1 + d = n + (d + 1) by omega]; exact hs)
      exact ⟨n', by omega, h'⟩

/-- Its step, if it is not blocked and has something left to do. -/
theorem _root_.Verif.Spec.P256.History.drop {n : ℕ} {i : ι} {s : St} {r : ℕ ×ₗ ℕ ×ₗ ℕ} (h : At (y n) i j t r)
    (hs : e n = .step i s) (ht : t ≠ ⟨.idle, []⟩) (hb : ¬ Blocked t (y n).once) :
    ∃ t', ∃ r' < r, At (y (n + 1)) i j t' r' := by
  have hI := H.inv n
  obtain ⟨r', hr', hk⟩ := (hI.phase h.1).drop ht (hI.apart h.1) hI.rr hI.table s h.2 hb
  refine ⟨(t.step s (y n).once (y n).mem).1, r', hr', ?_, ?_⟩
  · rw [H.next n, hs, next_step h.1 ht]
    exact upd_self _ _ _
  · rw [H.next n, hs, next_step h.1 ht]
    exact hk

/-- The initialization ends. -/
theorem _root_.Verif.Spec.P256.History.init_ends (F : Fair y e) {n : ℕ} {i : ι} {r : ℕ ×ₗ ℕ ×ₗ ℕ} (h : At (y n) i j t r)
    (hl : t.inits) : ∃ n' ≥ n, (y n').once = .done := by
  induction r using WellFoundedLT.induction generalizing n t with
  | ind r ih =>
    obtain ⟨n1, hn1, ⟨s, hs⟩, h1⟩ := H.advance F h
    have hI := H.inv n1
    have hp := hI.phase h1.1
    have ht := hp.not_done hl
    have hbusy := hp.busy hl
    have hb : ¬ Blocked t (y n1).once := by
      rintro ⟨⟨cs, hc⟩, -⟩
      revert hl hc
      cases hp with
      | wait i hi => intro hl; simp [Thread.inits] at hl
      | init ctl cs' hi ho h => simp
      | run ctl cs' ho h => simp
    obtain ⟨r', hr', hk⟩ := hp.drop ht (hI.apart h1.1) hI.rr hI.table s h1.2 hb
    have e1 := H.next n1
    rw [hs, next_step h1.1 ht] at e1
    rcases (hp.step ht (hI.apart h1.1) hI.rr hI.table s).once with ⟨-, hiff⟩ | ⟨hf, -⟩ | ⟨-, -, hd, -⟩
    · obtain ⟨n', hn', h'⟩ := ih r' hr' (n := n1 + 1) (t := (t.step s (y n1).once (y n1).mem).1)
        ⟨by rw [e1]; exact upd_self _ _ _, by rw [e1]; exact hk⟩ (hiff.2 hl)
      exact ⟨n', by omega, h'⟩
    · rw [hbusy] at hf
      cases hf
    · exact ⟨n1 + 1, by omega, by rw [e1]; exact hd⟩

/-- The call returns between two states. -/
def Returns (y : ℕ → Sys ι) (e : ℕ → Event ι) (i : ι) (j : Job) (n : ℕ) : Prop :=
  (∃ s, e n = .step i s) ∧ (y (n + 1)).log = (j, answer j) :: (y n).log ∧ (y (n + 1)).running i = none

theorem _root_.Verif.Spec.P256.History.return {n : ℕ} {i : ι} {s : St} {r : ℕ ×ₗ ℕ ×ₗ ℕ} (h : At (y n) i j ⟨.idle, []⟩ r)
    (hs : e n = .step i s) : Returns y e i j n := by
  have e1 := H.next n
  rw [hs, next_return h.1] at e1
  refine ⟨⟨s, hs⟩, ?_, ?_⟩
  · rw [e1, ← ((H.inv n).phase h.1).result]
  · rw [e1]
    exact upd_self _ _ _

/-- By a later time, the goroutine is where it was, has less to do, or has returned. -/
theorem _root_.Verif.Spec.P256.History.wait {n n1 : ℕ} (hn : n ≤ n1) {i : ι} {r : ℕ ×ₗ ℕ ×ₗ ℕ} (h : At (y n) i j t r) :
    (∃ n' ≥ n, Returns y e i j n') ∨ (∃ n' ≥ n, ∃ t', ∃ r' < r, At (y n') i j t' r') ∨
      At (y n1) i j t r := by
  induction n1, hn using Nat.le_induction with
  | base => exact .inr (.inr h)
  | succ k hk ih =>
    rcases ih with ih | ih | ih
    · exact .inl ih
    · exact .inr (.inl ih)
    · by_cases hc : ∃ s, e k = .step i s
      · obtain ⟨s, hs⟩ := hc
        by_cases ht : t = ⟨.idle, []⟩
        · subst ht
          exact .inl ⟨k, hk, H.return ih hs⟩
        · by_cases hb : Blocked t (y k).once
          · refine .inr (.inr ?_)
            have e1 := H.next k
            rw [hs, next_step ih.1 ht, ((H.inv k).phase ih.1).blocked hb s] at e1
            exact ⟨by rw [e1]; exact upd_self _ _ _, by rw [e1]; exact ih.2⟩
          · obtain ⟨t', r', hr', h'⟩ := H.drop ih hs ht hb
            exact .inr (.inl ⟨k + 1, by omega, t', r', hr', h'⟩)
      · exact .inr (.inr (H.frame ih fun s hs => hc ⟨s, hs⟩))

/-- A time from which on the goroutine is not blocked. -/
theorem _root_.Verif.Spec.P256.History.unblocked (F : Fair y e) (n : ℕ) : ∃ n1 ≥ n, ∀ n' ≥ n1, (y n').once ≠ .busy := by
  by_cases hf : ∀ n' ≥ n, (y n').once = .fresh
  · exact ⟨n, Nat.le_refl _, fun n' hn' => by rw [hf n' hn']; nofun⟩
  · push Not at hf
    obtain ⟨n1, hn1, hf⟩ := hf
    have : ∃ n2 ≥ n1, (y n2).once = .done := by
      cases ho : (y n1).once with
      | fresh => exact absurd ho hf
      | done => exact ⟨n1, Nat.le_refl _, ho⟩
      | busy =>
        obtain ⟨i, j, t, hi, hl⟩ := H.someInit n1 ho
        obtain ⟨r, hr⟩ := ((H.inv n1).phase hi).rank
        exact H.init_ends F ⟨hi, hr⟩ hl
    obtain ⟨n2, hn2, ho⟩ := this
    exact ⟨n2, by omega, fun n' hn' => by rw [H.done hn' ho]; nofun⟩

theorem _root_.Verif.Spec.P256.History.returns (F : Fair y e) {n : ℕ} {i : ι} {r : ℕ ×ₗ ℕ ×ₗ ℕ} (h : At (y n) i j t r) :
    ∃ n' ≥ n, Returns y e i j n' := by
  induction r using WellFoundedLT.induction generalizing n t with
  | ind r ih =>
    obtain ⟨n1, hn1, hu⟩ := H.unblocked F n
    rcases H.wait hn1 h with h1 | ⟨n2, hn2, t', r', hr', h1⟩ | h1
    · exact h1
    · obtain ⟨n', hn', h2⟩ := ih r' hr' h1
      exact ⟨n', by omega, h2⟩
    · obtain ⟨n2, hn2, ⟨s, hs⟩, h2⟩ := H.advance F h1
      by_cases ht : t = ⟨.idle, []⟩
      · subst ht
        exact ⟨n2, by omega, H.return h2 hs⟩
      · obtain ⟨t', r', hr', h3⟩ := H.drop h2 hs ht fun hb => hu n2 hn2 hb.2
        obtain ⟨n', hn', h4⟩ := ih r' hr' h3
        exact ⟨n', by omega, h4⟩

end

end Verif.X64.P256
