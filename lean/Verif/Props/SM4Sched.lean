import Mathlib.Data.Nat.Notation
import Mathlib.Tactic.SplitIfs
import Verif.Model.SM4Sched
import Verif.Props.SM4
/-!
# C105: one SM4 cipher in several goroutines

Specification: calls that overlap in time use different memory (reading shared `src` bytes is fine), and other
code leaves the buffers of a call alone while the call runs. Then each call writes the standard's SM4 of what
its `src` held when it was called, under every schedule.
-/
namespace Verif.Props
open Verif Verif.SM4

variable {ι : Type} [DecidableEq ι]

/-- `a` is one of the first 16 bytes of `s`. -/
def InBlock (s : Slice) (a : Addr) : Prop := ∃ i, i < 16 ∧ i < s.len ∧ a = at' s i

/-- What one call writes the other neither reads nor writes. -/
def Apart (c d : Call) : Prop :=
  (∀ a, InBlock c.dst a → ¬ InBlock d.dst a ∧ ¬ InBlock d.src a) ∧
  (∀ a, InBlock d.dst a → ¬ InBlock c.dst a ∧ ¬ InBlock c.src a)

/-- The discipline for the next event. -/
def Allowed (y : Sys ι) : Event ι → Prop
  | .call t c => y.calls t = none ∧ ∀ u d k, y.calls u = some (d, k) → Apart c d
  | .poke a _ => ∀ u d k, y.calls u = some (d, k) → ¬ InBlock d.dst a ∧ ¬ InBlock d.src a
  | .step _ => True
  | .leave _ => True

/-- Every event of a sequence is allowed. -/
def AllAllowed (y : Sys ι) : List (Event ι) → Prop
  | [] => True
  | e :: es => Allowed y e ∧ AllAllowed (y.next e) es

/-- The 16 bytes at the start of a slice. -/
def blockAt (mem : Addr → Byte) (s : Slice) : Bytes := (List.range 16).map fun i => mem (at' s i)

/-- The number of steps of goroutine `t`. -/
def stepsOf (t : ι) : List (Event ι) → ℕ
  | [] => 0
  | .step u :: es => (if u = t then 1 else 0) + stepsOf t es
  | _ :: es => stepsOf t es

/-- Goroutine `t` neither leaves nor makes another call. -/
def Stays (t : ι) (es : List (Event ι)) : Prop := ∀ e ∈ es, e ≠ .leave t ∧ ∀ c, e ≠ .call t c

/-- The standard's SM4 with a key. -/
def sm4Spec (key : Bytes) (decrypt : Bool) (b : Bytes) : Bytes :=
  if decrypt then Spec.SM4.decrypt key b else Spec.SM4.encrypt key b

/-! ## One call -/

theorem blockAt_length (mem : Addr → Byte) (s : Slice) : (blockAt mem s).length = 16 := by simp [blockAt]

theorem blockAt_getD {mem : Addr → Byte} {s : Slice} {i : ℕ} (h : i < 16) :
    (blockAt mem s).getD i 0 = mem (at' s i) := by
  simp [blockAt, List.getD, h]

/-- The round keys in the order of use. -/
def keysInOrder (ks : List Word) (d : Bool) : List Word := if d then ks.reverse else ks

theorem keysInOrder_getD {ks : List Word} (hk : ks.length = 32) (d : Bool) {j : ℕ} (hj : j < 32) :
    (keysInOrder ks d)[j]? = some (ks.getD (keyIndex d j) 0) := by
  unfold keysInOrder keyIndex
  cases d
  · simp [List.getD, List.getElem?_eq_getElem (show j < ks.length by omega)]
  · simp only [if_true]
    rw [List.getElem?_reverse (by omega)]
    simp [hk, List.getD, List.getElem?_eq_getElem (show 31 - j < ks.length by omega)]

/-- What is known of a call that started with the bytes `inp` in `src`. -/
def CallOk (ks : List Word) (c : Call) (inp : Bytes) (mem : Addr → Byte) : Ctl → Prop
  | .load i got => i < 16 ∧ i ≤ c.src.len ∧ got = inp.take i ∧ ∀ k < 16, k < c.src.len → mem (at' c.src k) = inp.getD k 0
  | .round j m => 16 ≤ c.src.len ∧ j < 32 ∧ m = ((keysInOrder ks c.decrypt).take j).foldl roundStep (loadQuad inp)
  | .store i out => 16 ≤ c.src.len ∧ i < 16 ∧ i ≤ c.dst.len ∧ out = cryptBytes ks inp c.decrypt ∧
      ∀ k < i, mem (at' c.dst k) = out.getD k 0
  | .done => 16 ≤ c.src.len ∧ 16 ≤ c.dst.len ∧ ∀ k < 16, mem (at' c.dst k) = (cryptBytes ks inp c.decrypt).getD k 0
  | .panicked => c.src.len < 16 ∨ 16 ≤ c.src.len ∧ c.dst.len < 16 ∧
      ∀ k < c.dst.len, mem (at' c.dst k) = (cryptBytes ks inp c.decrypt).getD k 0

theorem at_inj {s : Slice} {i j : ℕ} (h : at' s i = at' s j) : i = j := by
  simp only [at', Prod.mk.injEq, true_and] at h; omega

/-- Other code that leaves the buffers of the call alone. -/
theorem CallOk.frame {ks : List Word} {c : Call} {inp : Bytes} {mem mem' : Addr → Byte} {k : Ctl}
    (h : CallOk ks c inp mem k) (hm : ∀ a, InBlock c.dst a ∨ InBlock c.src a → mem' a = mem a) :
    CallOk ks c inp mem' k := by
  cases k with
  | load i got =>
    obtain ⟨h1, h2, h3, h4⟩ := h
    exact ⟨h1, h2, h3, fun k hk hl => by rw [hm _ (Or.inr ⟨k, hk, hl, rfl⟩)]; exact h4 k hk hl⟩
  | round j m => exact h
  | store i out =>
    obtain ⟨h0, h1, h2, h3, h4⟩ := h
    exact ⟨h0, h1, h2, h3, fun k hk => by rw [hm _ (Or.inl ⟨k, by omega, by omega, rfl⟩)]; exact h4 k hk⟩
  | done =>
    obtain ⟨h0, h1, h2⟩ := h
    exact ⟨h0, h1, fun k hk => by rw [hm _ (Or.inl ⟨k, hk, by omega, rfl⟩)]; exact h2 k hk⟩
  | panicked =>
    rcases h with h | ⟨h0, h1, h2⟩
    · exact Or.inl h
    · exact Or.inr ⟨h0, h1, fun k hk => by rw [hm _ (Or.inl ⟨k, by omega, hk, rfl⟩)]; exact h2 k hk⟩

/-- A step of the call itself. -/
theorem CallOk.micro {ks : List Word} (hks : ks.length = 32) {c : Call} {inp : Bytes} (hinp : inp.length = 16)
    {mem : Addr → Byte} {k : Ctl} (h : CallOk ks c inp mem k) :
    CallOk ks c inp (micro ks c k mem).2 (micro ks c k mem).1 := by
  cases k with
  | load i got =>
    obtain ⟨h1, h2, h3, h4⟩ := h
    unfold SM4.micro
    by_cases hl : i < c.src.len
    · simp only [if_pos hl]
      have hg : got ++ [mem (at' c.src i)] = inp.take (i + 1) := by
        rw [h3, h4 i h1 hl, List.take_add_one, List.getD, List.getElem?_eq_getElem (by omega)]
        simp
      rw [hg]
      by_cases he : i + 1 = 16
      · rw [if_pos he]
        refine ⟨by omega, by omega, ?_⟩
        rw [he, List.take_of_length_le (by omega)]; simp
      · rw [if_neg he]
        exact ⟨by omega, by omega, rfl, h4⟩
    · simp only [if_neg hl]
      exact Or.inl (by omega)
  | round j m =>
    obtain ⟨h0, h1, h2⟩ := h
    unfold SM4.micro
    simp only
    have hm : roundStep m (ks.getD (keyIndex c.decrypt j) 0) =
        ((keysInOrder ks c.decrypt).take (j + 1)).foldl roundStep (loadQuad inp) := by
      rw [List.take_add_one, keysInOrder_getD hks c.decrypt h1, List.foldl_append, ← h2]
      rfl
    rw [hm]
    by_cases he : j + 1 = 32
    · rw [if_pos he]
      refine ⟨h0, by omega, by omega, ?_, fun k hk => absurd hk (by omega)⟩
      have hl : (keysInOrder ks c.decrypt).length = 32 := by
        unfold keysInOrder; split_ifs <;> simp [hks]
      rw [he, List.take_of_length_le (by omega)]
      unfold cryptBytes rounds keysInOrder
      split_ifs <;> rfl
    · rw [if_neg he]
      exact ⟨h0, by omega, rfl⟩
  | store i out =>
    obtain ⟨h0, h1, h2, h3, h4⟩ := h
    unfold SM4.micro
    by_cases hl : i < c.dst.len
    · simp only [if_pos hl]
      have hw : ∀ k < i + 1, Function.update mem (at' c.dst i) (out.getD i 0) (at' c.dst k) = out.getD k 0 := by
        intro k hk
        by_cases e : k = i
        · rw [e, Function.update_self]
        · rw [Function.update_of_ne (fun h => e (at_inj h)), h4 k (by omega)]
      by_cases he : i + 1 = 16
      · rw [if_pos he]
        refine ⟨h0, by omega, fun k hk => ?_⟩
        rw [hw k (by omega), h3]
      · rw [if_neg he]
        exact ⟨h0, by omega, by omega, h3, hw⟩
    · simp only [if_neg hl]
      refine Or.inr ⟨h0, by omega, fun k hk => ?_⟩
      rw [h4 k (by omega), h3]
  | done => exact h
  | panicked => exact h

/-- A step writes to the first 16 bytes of `dst` only. -/
theorem micro_frame {ks : List Word} {c : Call} {inp : Bytes} {mem : Addr → Byte} {k : Ctl}
    (h : CallOk ks c inp mem k) {a : Addr} (ha : ¬ InBlock c.dst a) : (micro ks c k mem).2 a = mem a := by
  cases k with
  | load i got => unfold micro; dsimp only; split_ifs <;> rfl
  | round j m => rfl
  | store i out =>
    unfold micro
    dsimp only
    by_cases hl : i < c.dst.len
    · rw [if_pos hl]
      refine Function.update_of_ne ?_ _ _
      rintro rfl
      exact ha ⟨i, h.2.1, hl, rfl⟩
    · rw [if_neg hl]
  | done => rfl
  | panicked => rfl

/-- How many steps a call still makes. -/
def rank : Ctl → ℕ
  | .load i _ => 64 - i
  | .round j _ => 48 - j
  | .store i _ => 16 - i
  | .done => 0
  | .panicked => 0

theorem micro_rank {ks : List Word} {c : Call} {inp : Bytes} {mem : Addr → Byte} {k : Ctl}
    (h : CallOk ks c inp mem k) : rank (micro ks c k mem).1 ≤ rank k - 1 := by
  cases k with
  | load i got =>
    unfold micro
    have := h.1
    dsimp only
    split_ifs <;> simp only [rank] <;> omega
  | round j m =>
    unfold micro
    have := h.2.1
    simp only
    split_ifs <;> simp only [rank] <;> omega
  | store i out =>
    unfold micro
    have := h.2.1
    dsimp only
    split_ifs <;> simp only [rank] <;> omega
  | done => simp [micro, rank]
  | panicked => simp [micro, rank]

/-! ## The whole program -/

/-- All calls in progress are in order and apart. -/
structure SysOk (ks : List Word) (y : Sys ι) : Prop where
  keys : y.subkeys = ks
  ok : ∀ t c k, y.calls t = some (c, k) → ∃ inp, inp.length = 16 ∧ CallOk ks c inp y.mem k
  apart : ∀ t u c d k l, t ≠ u → y.calls t = some (c, k) → y.calls u = some (d, l) → Apart c d

theorem SysOk.mem_step {ks : List Word} {y : Sys ι} (h : SysOk ks y) {e : Event ι} (he : Allowed y e) {t : ι} {c : Call}
    {k : Ctl} (ht : y.calls t = some (c, k)) (hne : e ≠ .step t) (a : Addr) (ha : InBlock c.dst a ∨ InBlock c.src a) :
    (y.next e).mem a = y.mem a := by
  cases e with
  | call u d => rfl
  | leave u => rfl
  | poke b v =>
    have := he t c k ht
    have hb : a ≠ b := by
      rintro rfl
      rcases ha with ha | ha
      · exact this.1 ha
      · exact this.2 ha
    exact Function.update_of_ne hb _ _
  | step u =>
    have hu : u ≠ t := fun e => hne (by rw [e])
    cases hc : y.calls u with
    | none => simp only [Sys.next, hc]
    | some p =>
      obtain ⟨d, l⟩ := p
      obtain ⟨inp, -, hok⟩ := h.ok u d l hc
      simp only [Sys.next, hc, h.keys]
      refine micro_frame hok fun hd => ?_
      have := (h.apart u t d c l k hu hc ht).1 a hd
      rcases ha with ha | ha
      · exact this.1 ha
      · exact this.2 ha

theorem apart_comm {c d : Call} (h : Apart c d) : Apart d c := ⟨h.2, h.1⟩

theorem callOk_start {ks : List Word} {c : Call} {mem : Addr → Byte} :
    CallOk ks c (blockAt mem c.src) mem (.load 0 []) :=
  ⟨by omega, by omega, rfl, fun k hk _ => (blockAt_getD hk).symm⟩

theorem SysOk.next {ks : List Word} (hks : ks.length = 32) {y : Sys ι} (h : SysOk ks y) {e : Event ι} (he : Allowed y e) :
    SysOk ks (y.next e) := by
  have hmem := fun {t : ι} {c : Call} {k : Ctl} => h.mem_step he (t := t) (c := c) (k := k)
  cases e with
  | poke b v =>
    refine ⟨h.keys, fun t c k ht => ?_, h.apart⟩
    obtain ⟨inp, h1, h2⟩ := h.ok t c k ht
    exact ⟨inp, h1, h2.frame (hmem ht (by simp))⟩
  | leave u =>
    refine ⟨h.keys, fun t c k ht => ?_, fun t w c d k l htw ht hw => ?_⟩
    · simp only [Sys.next, Function.update_apply] at ht
      split_ifs at ht
      exact h.ok t c k ht
    · simp only [Sys.next, Function.update_apply] at ht hw
      split_ifs at ht hw
      exact h.apart t w c d k l htw ht hw
  | call u d =>
    obtain ⟨hn, ha⟩ := he
    refine ⟨h.keys, fun t c k ht => ?_, fun t w c d' k l htw ht hw => ?_⟩
    · simp only [Sys.next, Function.update_apply] at ht
      split_ifs at ht with e
      · cases ht
        exact ⟨_, blockAt_length _ _, callOk_start⟩
      · exact h.ok t c k ht
    · simp only [Sys.next, Function.update_apply] at ht hw
      split_ifs at ht hw with e1 e2 e2
      · exact absurd (e1.trans e2.symm) htw
      · cases ht; exact ha w d' l hw
      · cases hw; exact apart_comm (ha t c k ht)
      · exact h.apart t w c d' k l htw ht hw
  | step u =>
    cases hc : y.calls u with
    | none =>
      have : y.next (.step u) = y := by simp only [Sys.next, hc]
      rw [this]; exact h
    | some p =>
      obtain ⟨d0, k0⟩ := p
      have hn : y.next (.step u) = { y with
          mem := (micro ks d0 k0 y.mem).2
          calls := Function.update y.calls u (some (d0, (micro ks d0 k0 y.mem).1)) } := by
        simp only [Sys.next, hc, h.keys]
      refine ⟨by rw [hn]; exact h.keys, fun t c k ht => ?_, fun t w c d' k l htw ht hw => ?_⟩
      · have ht' := ht
        rw [hn] at ht
        simp only [Function.update_apply] at ht
        split_ifs at ht with e
        · cases ht
          obtain ⟨inp, h1, h2⟩ := h.ok u d0 k0 hc
          exact ⟨inp, h1, by rw [hn]; exact h2.micro hks h1⟩
        · obtain ⟨inp, h1, h2⟩ := h.ok t c k ht
          exact ⟨inp, h1, h2.frame (hmem ht (by simpa using fun h => e h.symm))⟩
      · rw [hn] at ht hw
        simp only [Function.update_apply] at ht hw
        split_ifs at ht hw with e1 e2 e2
        · exact absurd (e1.trans e2.symm) htw
        · cases ht; subst e1; exact h.apart t w _ d' k0 l htw hc hw
        · cases hw; subst e2; exact h.apart t w c _ k k0 htw ht hc
        · exact h.apart t w c d' k l htw ht hw

theorem SysOk.run {ks : List Word} (hks : ks.length = 32) : ∀ (es : List (Event ι)) {y : Sys ι}, SysOk ks y → AllAllowed y es →
    SysOk ks (y.run es)
  | [], _, h, _ => h
  | _ :: es, _, h, ha => SysOk.run hks es (h.next hks ha.1) ha.2

/-- A call in progress stays in order, and its steps are counted. -/
theorem call_run {ks : List Word} (hks : ks.length = 32) {t : ι} {c : Call} {inp : Bytes} (hinp : inp.length = 16) :
    ∀ (es : List (Event ι)) {y : Sys ι} {k : Ctl}, SysOk ks y → AllAllowed y es → Stays t es → y.calls t = some (c, k) →
      CallOk ks c inp y.mem k →
      (∃ k', (y.run es).calls t = some (c, k') ∧ CallOk ks c inp (y.run es).mem k' ∧ rank k' ≤ rank k - stepsOf t es) ∧
      (c.src.len < 16 → ∀ a, InBlock c.dst a → (y.run es).mem a = y.mem a)
  | [], _, k, _, _, _, ht, hk => ⟨⟨k, ht, hk, by simp [stepsOf]⟩, fun _ _ _ => rfl⟩
  | e :: es, y, k, h, ha, hs, ht, hk => by
    have hs' : Stays t es := fun e he => hs e (List.mem_cons_of_mem _ he)
    have hn := h.next hks ha.1
    by_cases he : e = .step t
    · subst he
      have e1 : y.next (.step t) = { y with
          mem := (SM4.micro ks c k y.mem).2
          calls := Function.update y.calls t (some (c, (SM4.micro ks c k y.mem).1)) } := by
        simp only [Sys.next, ht, h.keys]
      obtain ⟨⟨k', r1, r2, r3⟩, r4⟩ := call_run hks hinp es (k := (SM4.micro ks c k y.mem).1) hn ha.2 hs'
        (by rw [e1]; exact Function.update_self ..) (by rw [e1]; exact hk.micro hks hinp)
      refine ⟨⟨k', r1, r2, ?_⟩, fun hl a ha => (r4 hl a ha).trans ?_⟩
      · have := micro_rank hk
        simp only [stepsOf, if_true]
        omega
      · rw [e1]
        cases k with
        | load i got => unfold SM4.micro; dsimp only; split_ifs <;> rfl
        | round j m => exact absurd hk.1 (by omega)
        | store i out => exact absurd hk.1 (by omega)
        | done => rfl
        | panicked => rfl
    · have hm : CallOk ks c inp (y.next e).mem k := hk.frame (h.mem_step ha.1 ht he)
      have hc : (y.next e).calls t = some (c, k) := by
        cases e with
        | poke b v => exact ht
        | leave u =>
          have : t ≠ u := by
            rintro rfl
            exact (hs _ List.mem_cons_self).1 rfl
          simp only [Sys.next]
          rw [Function.update_of_ne this]; exact ht
        | call u d =>
          have : t ≠ u := by
            rintro rfl
            exact (hs _ List.mem_cons_self).2 d rfl
          simp only [Sys.next]
          rw [Function.update_of_ne this]; exact ht
        | step u =>
          have : t ≠ u := fun e => he (by rw [e])
          simp only [Sys.next]
          cases y.calls u with
          | none => exact ht
          | some p => simp only; rw [Function.update_of_ne this]; exact ht
      obtain ⟨⟨k', r1, r2, r3⟩, r4⟩ := call_run hks hinp es hn ha.2 hs' hc hm
      refine ⟨⟨k', r1, r2, ?_⟩, fun hl a hb => (r4 hl a hb).trans (h.mem_step ha.1 ht he a (Or.inl hb))⟩
      have : stepsOf t (e :: es) = stepsOf t es := by
        cases e with
        | step u =>
          have : u ≠ t := fun e => he (by rw [e])
          simp [stepsOf, this]
        | _ => rfl
      omega

theorem run_append (y : Sys ι) (es fs : List (Event ι)) : y.run (es ++ fs) = (y.run es).run fs := List.foldl_append

theorem allAllowed_append {y : Sys ι} {es fs : List (Event ι)} :
    AllAllowed y (es ++ fs) ↔ AllAllowed y es ∧ AllAllowed (y.run es) fs := by
  induction es generalizing y with
  | nil => simp [AllAllowed, Sys.run]
  | cons e es ih => simp only [List.cons_append, AllAllowed, ih, and_assoc]; rfl

theorem subkeys_length {key : Bytes} {ci : SM4.Cipher} (h : SM4.newCipher key = .ok ci) :
    key.length = 16 ∧ ci.subkeys = generateSubkeys key := by
  unfold SM4.newCipher at h
  split_ifs at h with hk
  cases h
  exact ⟨not_not.1 hk, rfl⟩

theorem keyLoop_length : ∀ (cs : List Word) (k : Quad), (keyLoop k cs).length = cs.length
  | [], _ => rfl
  | c :: cs, k => by rw [keyLoop, List.length_cons, keyLoop_length, List.length_cons]

theorem generateSubkeys_length (key : Bytes) : (generateSubkeys key).length = 32 := by
  unfold generateSubkeys
  rw [keyLoop_length]; rfl

theorem cryptBytes_spec {key b : Bytes} (hk : key.length = 16) (hb : b.length = 16) (d : Bool) :
    cryptBytes (generateSubkeys key) b d = sm4Spec key d b := by
  unfold sm4Spec
  cases d
  · rw [SM4.crypt_encrypt_eq key b hk (by omega)]; simp
  · rw [SM4.crypt_decrypt_eq key b hk (by omega)]; simp

/-- **C105** Under every schedule of the calls of one cipher in any number of goroutines, a call on buffers of 16
bytes or more has returned once its goroutine has made 64 steps, and when it has returned, its `dst` holds the
standard's SM4 of the bytes that `src` held when it was called. -/
theorem C105_shared_cipher (key : Bytes) (ci : SM4.Cipher) (hci : SM4.newCipher key = .ok ci)
    (mem : Addr → Byte) (before after : List (Event ι)) (t : ι) (c : Call)
    (hs : 16 ≤ c.src.len) (hd : 16 ≤ c.dst.len)
    (hok : AllAllowed ⟨mem, ci.subkeys, fun _ => none⟩ (before ++ .call t c :: after)) (hst : Stays t after) :
    let start := (⟨mem, ci.subkeys, fun _ => none⟩ : Sys ι).run before
    let now := (⟨mem, ci.subkeys, fun _ => none⟩ : Sys ι).run (before ++ .call t c :: after)
    (64 ≤ stepsOf t after → now.calls t = some (c, .done)) ∧ now.calls t ≠ some (c, .panicked) ∧
    (now.calls t = some (c, .done) → blockAt now.mem c.dst = sm4Spec key c.decrypt (blockAt start.mem c.src)) := by
  obtain ⟨hk, hsub⟩ := subkeys_length hci
  have hks : ci.subkeys.length = 32 := by rw [hsub]; exact generateSubkeys_length key
  intro start now
  obtain ⟨ha1, ha2⟩ := allAllowed_append.1 hok
  have h0 : SysOk ci.subkeys (⟨mem, ci.subkeys, fun _ => none⟩ : Sys ι) :=
    ⟨rfl, fun _ _ _ h => (by cases h), fun _ _ _ _ _ _ _ h => (by cases h)⟩
  have h1 : SysOk ci.subkeys start := h0.run hks before ha1
  have h2 := h1.next hks ha2.1
  have hnow : now = (start.next (.call t c)).run after := by
    change Sys.run _ _ = _
    rw [run_append]; rfl
  obtain ⟨⟨k', r1, r2, r3⟩, r4⟩ := call_run hks (blockAt_length start.mem c.src) after h2 ha2.2 hst
    (show (start.next (.call t c)).calls t = some (c, .load 0 []) from Function.update_self ..)
    (show CallOk ci.subkeys c (blockAt start.mem c.src) (start.next (.call t c)).mem (.load 0 []) from callOk_start)
  rw [← hnow] at r1 r2
  refine ⟨fun h64 => ?_, ?_, fun hdone => ?_⟩
  · have hr : rank k' = 0 := by
      have : rank (.load 0 [] : Ctl) = 64 := rfl
      omega
    cases k' with
    | load i got => have := r2.1; simp only [rank] at hr; omega
    | round j m => have := r2.2.1; simp only [rank] at hr; omega
    | store i out => have := r2.2.1; simp only [rank] at hr; omega
    | done => exact r1
    | panicked =>
      rcases r2 with h | ⟨-, h, -⟩ <;> omega
  · intro h
    rw [r1] at h
    cases h
    rcases r2 with h | ⟨-, h, -⟩ <;> omega
  · rw [r1] at hdone
    cases hdone
    rw [← cryptBytes_spec hk (blockAt_length _ _), ← hsub]
    apply List.ext_getElem?
    intro i
    by_cases hi : i < 16
    · rw [List.getElem?_eq_getElem (by rw [blockAt_length]; exact hi),
        List.getElem?_eq_getElem (by rw [SM4.cryptBytes_length]; exact hi)]
      have := r2.2.2 i hi
      rw [List.getD, List.getElem?_eq_getElem (by rw [SM4.cryptBytes_length]; exact hi)] at this
      simpa [blockAt] using this
    · rw [List.getElem?_eq_none (by rw [blockAt_length]; omega),
        List.getElem?_eq_none (by rw [SM4.cryptBytes_length]; omega)]

/-- **C105** A call with a short buffer panics after at most 64 steps, under every schedule. If only `dst` is short,
it has been filled with the first bytes of the result by then; if `src` is short, nothing has been written. -/
theorem C105_short (key : Bytes) (ci : SM4.Cipher) (hci : SM4.newCipher key = .ok ci)
    (mem : Addr → Byte) (before after : List (Event ι)) (t : ι) (c : Call)
    (hs : c.src.len < 16 ∨ c.dst.len < 16)
    (hok : AllAllowed ⟨mem, ci.subkeys, fun _ => none⟩ (before ++ .call t c :: after)) (hst : Stays t after) :
    let start := (⟨mem, ci.subkeys, fun _ => none⟩ : Sys ι).run before
    let now := (⟨mem, ci.subkeys, fun _ => none⟩ : Sys ι).run (before ++ .call t c :: after)
    (64 ≤ stepsOf t after → now.calls t = some (c, .panicked)) ∧ now.calls t ≠ some (c, .done) ∧
    (now.calls t = some (c, .panicked) → 16 ≤ c.src.len →
      (blockAt now.mem c.dst).take c.dst.len =
        (sm4Spec key c.decrypt (blockAt start.mem c.src)).take c.dst.len) ∧
    (c.src.len < 16 → ∀ a, InBlock c.dst a → now.mem a = start.mem a) := by
  obtain ⟨hk, hsub⟩ := subkeys_length hci
  have hks : ci.subkeys.length = 32 := by rw [hsub]; exact generateSubkeys_length key
  intro start now
  obtain ⟨ha1, ha2⟩ := allAllowed_append.1 hok
  have h0 : SysOk ci.subkeys (⟨mem, ci.subkeys, fun _ => none⟩ : Sys ι) :=
    ⟨rfl, fun _ _ _ h => (by cases h), fun _ _ _ _ _ _ _ h => (by cases h)⟩
  have h1 : SysOk ci.subkeys start := h0.run hks before ha1
  have h2 := h1.next hks ha2.1
  have hnow : now = (start.next (.call t c)).run after := by
    change Sys.run _ _ = _
    rw [run_append]; rfl
  obtain ⟨⟨k', r1, r2, r3⟩, r4⟩ := call_run hks (blockAt_length start.mem c.src) after h2 ha2.2 hst
    (show (start.next (.call t c)).calls t = some (c, .load 0 []) from Function.update_self ..)
    (show CallOk ci.subkeys c (blockAt start.mem c.src) (start.next (.call t c)).mem (.load 0 []) from callOk_start)
  rw [← hnow] at r1 r2
  refine ⟨fun h64 => ?_, ?_, fun hp hl => ?_, fun hl a ha => by rw [hnow]; exact r4 hl a ha⟩
  · have hr : rank k' = 0 := by
      have : rank (.load 0 [] : Ctl) = 64 := rfl
      omega
    cases k' with
    | load i got => have := r2.1; simp only [rank] at hr; omega
    | round j m => have := r2.2.1; simp only [rank] at hr; omega
    | store i out => have := r2.2.1; simp only [rank] at hr; omega
    | done => have := r2.1; have := r2.2.1; omega
    | panicked => exact r1
  · intro h
    rw [r1] at h
    cases h
    have := r2.1; have := r2.2.1; omega
  · rw [r1] at hp
    cases hp
    rcases r2 with h | ⟨-, hdl, hw⟩
    · omega
    rw [← cryptBytes_spec hk (blockAt_length _ _), ← hsub]
    apply List.ext_getElem?
    intro i
    by_cases hi : i < c.dst.len
    · have := hw i hi
      rw [List.getD, List.getElem?_eq_getElem (by rw [SM4.cryptBytes_length]; omega)] at this
      rw [List.getElem?_take_of_lt hi, List.getElem?_take_of_lt hi,
        List.getElem?_eq_getElem (by rw [blockAt_length]; omega),
        List.getElem?_eq_getElem (by rw [SM4.cryptBytes_length]; omega)]
      simpa [blockAt] using this
    · rw [List.getElem?_eq_none (by rw [List.length_take]; omega),
        List.getElem?_eq_none (by rw [List.length_take]; omega)]

/-- **C105** No byte changes except through other code and the first 16 bytes of the `dst` of some call. -/
theorem C105_frame (key : Bytes) (ci : SM4.Cipher) (hci : SM4.newCipher key = .ok ci)
    (mem : Addr → Byte) (es : List (Event ι)) (hok : AllAllowed ⟨mem, ci.subkeys, fun _ => none⟩ es) (a : Addr)
    (hp : ∀ b, .poke a b ∉ es) (hc : ∀ t c, .call t c ∈ es → ¬ InBlock c.dst a) :
    ((⟨mem, ci.subkeys, fun _ => none⟩ : Sys ι).run es).mem a = mem a := by
  obtain ⟨hk, hsub⟩ := subkeys_length hci
  have hks : ci.subkeys.length = 32 := by rw [hsub]; exact generateSubkeys_length key
  suffices H : ∀ (es : List (Event ι)) (y : Sys ι), SysOk ci.subkeys y → AllAllowed y es → (∀ b, .poke a b ∉ es) →
      (∀ t c, .call t c ∈ es → ¬ InBlock c.dst a) → (∀ t c k, y.calls t = some (c, k) → ¬ InBlock c.dst a) →
      (y.run es).mem a = y.mem a from
    H es _ ⟨rfl, fun _ _ _ h => (by cases h), fun _ _ _ _ _ _ _ h => (by cases h)⟩ hok hp hc (fun _ _ _ h => (by cases h))
  intro es
  induction es with
  | nil => intros; rfl
  | cons e es ih =>
    intro y h ha hp hc hy
    have h2 := ih (y.next e) (h.next hks ha.1) ha.2 (fun b hb => hp b (List.mem_cons_of_mem _ hb))
      (fun t c ht => hc t c (List.mem_cons_of_mem _ ht)) (fun t c k ht => by
        cases e with
        | poke b v => exact hy t c k ht
        | leave u =>
          simp only [Sys.next, Function.update_apply] at ht
          split_ifs at ht
          exact hy t c k ht
        | call u d =>
          simp only [Sys.next, Function.update_apply] at ht
          split_ifs at ht with e
          · cases ht; exact hc u _ List.mem_cons_self
          · exact hy t c k ht
        | step u =>
          simp only [Sys.next] at ht
          cases hu : y.calls u with
          | none => rw [hu] at ht; exact hy t c k ht
          | some p =>
            rw [hu] at ht
            simp only [Function.update_apply] at ht
            split_ifs at ht with e
            · cases ht; exact hy u _ _ hu
            · exact hy t c k ht)
    refine h2.trans ?_
    cases e with
    | call u d => rfl
    | leave u => rfl
    | poke b v =>
      refine Function.update_of_ne ?_ _ _
      rintro rfl
      exact hp v List.mem_cons_self
    | step u =>
      simp only [Sys.next]
      cases hu : y.calls u with
      | none => rfl
      | some p =>
        obtain ⟨d, l⟩ := p
        obtain ⟨inp, -, hok⟩ := h.ok u d l hu
        simp only [h.keys]
        exact micro_frame hok (hy u d l hu)

/-- Steps, and writes elsewhere, are allowed. -/
theorem allowed_quiet : ∀ (es : List (Event ι)) {y : Sys ι},
    (∀ e ∈ es, (∃ u, e = .step u) ∨ ∃ a b, e = .poke a b ∧
      ∀ u d k, y.calls u = some (d, k) → ¬ InBlock d.dst a ∧ ¬ InBlock d.src a) → AllAllowed y es
  | [], _, _ => trivial
  | e :: es, y, h => by
    refine ⟨?_, allowed_quiet es fun f hf => ?_⟩
    · rcases h e List.mem_cons_self with ⟨u, rfl⟩ | ⟨a, b, rfl, h1⟩
      · trivial
      · exact h1
    · have hc : ∀ u d k, (y.next e).calls u = some (d, k) → ∃ k', y.calls u = some (d, k') := by
        intro u d k hu
        rcases h e List.mem_cons_self with ⟨w, rfl⟩ | ⟨a, b, rfl, h1⟩
        · simp only [Sys.next] at hu
          cases hw : y.calls w with
          | none => rw [hw] at hu; exact ⟨k, hu⟩
          | some p =>
            rw [hw] at hu
            simp only [Function.update_apply] at hu
            split_ifs at hu with e1
            · cases hu; exact ⟨p.2, by rw [e1, hw]⟩
            · exact ⟨k, hu⟩
        · exact ⟨k, hu⟩
      rcases h f (List.mem_cons_of_mem _ hf) with h1 | ⟨a, b, h1, h2⟩
      · exact Or.inl h1
      · refine Or.inr ⟨a, b, h1, fun u d k hu => ?_⟩
        obtain ⟨k', hk'⟩ := hc u d k hu
        exact h2 u d k' hk'

/-- Steps of both goroutines in turn, and a write in between. -/
def turns : ℕ → List (Event Bool)
  | 0 => []
  | n + 1 => .step false :: .poke (2, 0) 1 :: .step true :: turns n

theorem turns_steps : ∀ n, stepsOf false (turns n) = n
  | 0 => rfl
  | n + 1 => by simp only [turns, stepsOf, turns_steps n]; simp; omega

theorem mem_turns {e : Event Bool} : ∀ {n}, e ∈ turns n → (∃ u, e = .step u) ∨ e = .poke (2, 0) 1
  | 0, h => by cases h
  | n + 1, h => by
    simp only [turns, List.mem_cons] at h
    rcases h with h | h | h | h
    · exact Or.inl ⟨_, h⟩
    · exact Or.inr h
    · exact Or.inl ⟨_, h⟩
    · exact mem_turns h

/-- Two goroutines use one cipher on the same `src`, with neighbouring parts of one array as `dst`, and take turns,
while another byte is written: the hypotheses hold, and the first call has returned. -/
example : ∃ ci, SM4.newCipher (zeros 16) = .ok ci ∧
    ∃ (c d : Call) (after : List (Event Bool)), 16 ≤ c.src.len ∧ 16 ≤ c.dst.len ∧ c.src = d.src ∧
      AllAllowed ⟨fun _ => 7, ci.subkeys, fun _ => none⟩
        ([.poke (0, 3) 9] ++ .call false c :: (.call true d :: after)) ∧
      Stays false (.call true d :: after) ∧ 64 ≤ stepsOf false (.call true d :: after) := by
  obtain ⟨c, hc⟩ : ∃ c : Call, c = ⟨⟨1, 0, 16, 32⟩, ⟨0, 0, 16, 16⟩, false⟩ := ⟨_, rfl⟩
  obtain ⟨d, hd⟩ : ∃ d : Call, d = ⟨⟨1, 16, 16, 16⟩, ⟨0, 0, 16, 16⟩, true⟩ := ⟨_, rfl⟩
  have hap : Apart d c := by
    subst hc hd
    constructor <;> rintro a ⟨i, h1, -, rfl⟩ <;> constructor <;> rintro ⟨j, h2, -, h3⟩ <;>
      simp only [at', Prod.mk.injEq] at h3 <;> omega
  have hfar : ∀ s ∈ [c.dst, c.src, d.dst, d.src], ¬ InBlock s (2, 0) := by
    subst hc hd
    intro s hs
    rintro ⟨i, -, -, h⟩
    simp only [at', Prod.mk.injEq] at h
    simp only [List.mem_cons, List.not_mem_nil, or_false] at hs
    rcases hs with rfl | rfl | rfl | rfl <;> simp at h
  refine ⟨_, rfl, c, d, turns 64, by rw [hc]; decide, by rw [hc]; decide, by rw [hc, hd], ?_, ?_, ?_⟩
  · refine ⟨fun u d k h => (by cases h), ⟨rfl, fun u d k h => (by cases h)⟩, ⟨rfl, fun u e k h => ?_⟩, ?_⟩
    · simp only [Sys.next, Function.update_apply] at h
      split_ifs at h
      cases h
      exact hap
    · refine allowed_quiet _ fun e he => ?_
      rcases mem_turns he with h | rfl
      · exact Or.inl h
      · refine Or.inr ⟨_, _, rfl, fun u e k h => ?_⟩
        simp only [Sys.next, Function.update_apply] at h
        split_ifs at h
        · cases h
          exact ⟨hfar _ (by simp), hfar _ (by simp)⟩
        · cases h
          exact ⟨hfar _ (by simp), hfar _ (by simp)⟩
  · intro e he
    simp only [List.mem_cons] at he
    rcases he with rfl | he
    · simp
    · rcases mem_turns he with ⟨u, rfl⟩ | rfl <;> simp
  · simp only [stepsOf, turns_steps, Nat.le_refl]

end Verif.Props
