import Verif.Model.SM4Trace
import Verif.Lemmas.SM4
/-!
# C132: the table accesses of SM4

A program that shares the cache with one that uses SM4 can learn which parts of the table `sm4_sbox` are read. The
theorems say what follows from that: with the indices themselves the key, and with the cache lines some of its bits.
The number of accesses tells nothing.
-/
namespace Verif.Props
open Verif Verif.SM4

/-! ## The model with accesses returns what the model without them returns -/

theorem taoT_fst (a : Word) : (taoT a).1 = tao a := rfl
theorem taoT_length (a : Word) : (taoT a).2.length = 4 := rfl

theorem keyLoopT_fst (cs : List Word) : ∀ k, (keyLoopT k cs).1 = keyLoop k cs := by
  induction cs with
  | nil => intro k; rfl
  | cons c cs ih =>
    intro k
    show _ :: (keyLoopT _ cs).1 = _ :: keyLoop _ cs
    rw [ih]; rfl

theorem roundLoopT_fst (ks : List Word) : ∀ m, (roundLoopT m ks).1 = ks.foldl roundStep m := by
  induction ks with
  | nil => intro m; rfl
  | cons k ks ih =>
    intro m
    show (roundLoopT _ ks).1 = _
    rw [ih]; rfl

theorem cryptBytesT_fst (ks : List Word) (src : Bytes) (d : Bool) :
    (cryptBytesT ks src d).1 = cryptBytes ks src d := by
  unfold cryptBytesT cryptBytes rounds
  cases d <;> simp [roundLoopT_fst]

/-- **C132** The functions with a record of their accesses return what they return without it. -/
theorem C132_same (key : Bytes) (c : Cipher) (h : Heap) (dst src : Slice) :
    (newCipherT key).1 = newCipher key ∧ (c.encryptT h dst src).1 = c.encrypt h dst src ∧
      (c.decryptT h dst src).1 = c.decrypt h dst src := by
  have hc : ∀ d, (cryptBlockT c.subkeys h dst src d).1 = cryptBlock c.subkeys h dst src d := by
    intro d
    unfold cryptBlockT cryptBlock
    by_cases h1 : src.len < 16
    · rw [if_pos h1, if_pos h1]
    · rw [if_neg h1, if_neg h1]
      by_cases h2 : dst.len < 16
      · simp only [if_pos h2]
      · simp only [if_neg h2, cryptBytesT_fst]
  refine ⟨?_, hc _, hc _⟩
  unfold newCipherT newCipher
  by_cases h1 : key.length ≠ 16
  · rw [if_pos h1, if_pos h1]
  · rw [if_neg h1, if_neg h1]
    show Except.ok (Cipher.mk (generateSubkeysT key).1) = _
    unfold generateSubkeysT generateSubkeys
    rw [keyLoopT_fst]

/-! ## What the accesses tell -/

/-- The four bytes of a word, least significant first. -/
def wordIdx (a : Word) : List Byte := [a.setWidth 8, (a >>> 8).setWidth 8, (a >>> 16).setWidth 8, (a >>> 24).setWidth 8]

theorem wordIdx_inj {a b : Word} (h : wordIdx a = wordIdx b) : a = b := by
  have hw : wordBytes a = wordBytes b := by
    have := congrArg List.reverse h
    simpa [wordIdx, wordBytes] using this
  have e := loadWord_wordBytes a [] [] 0 rfl
  have e' := loadWord_wordBytes b [] [] 0 rfl
  rw [hw] at e
  exact e.symm.trans e'

/-- The loops of the key schedule and of the rounds are instances of one loop. -/
def loopT (g : Word → Word) : Quad → List Word → List Byte
  | _, [] => []
  | m, s :: ss => wordIdx (m.b ^^^ m.c ^^^ m.d ^^^ s)
      ++ loopT g ⟨m.b, m.c, m.d, m.a ^^^ g (m.b ^^^ m.c ^^^ m.d ^^^ s)⟩ ss

theorem keyLoopT_snd (cs : List Word) : ∀ k, (keyLoopT k cs).2 = loopT kt k cs := by
  induction cs with
  | nil => intro k; rfl
  | cons c cs ih =>
    intro k
    show _ ++ (keyLoopT _ cs).2 = _ ++ loopT _ _ cs
    rw [ih]; rfl

theorem roundLoopT_snd (ks : List Word) : ∀ m, (roundLoopT m ks).2 = loopT t m ks := by
  induction ks with
  | nil => intro m; rfl
  | cons k ks ih =>
    intro m
    show _ ++ (roundLoopT _ ks).2 = _ ++ loopT _ _ ks
    rw [ih]; rfl

theorem loopT_length (g : Word → Word) (ss : List Word) : ∀ m, (loopT g m ss).length = 4 * ss.length := by
  induction ss with
  | nil => intro m; rfl
  | cons s ss ih =>
    intro m
    show (wordIdx _ ++ loopT g _ ss).length = _
    rw [List.length_append, ih, List.length_cons]
    show 4 + _ = _
    omega

theorem loopT_cons {g : Word → Word} {m m' : Quad} {s s' : Word} {ss ss' : List Word}
    (h : loopT g m (s :: ss) = loopT g m' (s' :: ss')) :
    m.b ^^^ m.c ^^^ m.d ^^^ s = m'.b ^^^ m'.c ^^^ m'.d ^^^ s' ∧
    loopT g ⟨m.b, m.c, m.d, m.a ^^^ g (m.b ^^^ m.c ^^^ m.d ^^^ s)⟩ ss =
      loopT g ⟨m'.b, m'.c, m'.d, m'.a ^^^ g (m'.b ^^^ m'.c ^^^ m'.d ^^^ s')⟩ ss' := by
  have := List.append_inj h (by rfl)
  exact ⟨wordIdx_inj this.1, this.2⟩

theorem xor_cancel {x y k : Word} (h : x ^^^ k = y ^^^ k) : x = y := by
  have := congrArg (· ^^^ k) h
  simpa [BitVec.xor_assoc] using this

theorem bool_solve : ∀ a b c d a' b' c' d' : Bool, ((b ^^ c) ^^ d) = ((b' ^^ c') ^^ d') →
    ((c ^^ d) ^^ a) = ((c' ^^ d') ^^ a') → ((d ^^ a) ^^ b) = ((d' ^^ a') ^^ b') →
    ((a ^^ b) ^^ c) = ((a' ^^ b') ^^ c') → a = a' ∧ b = b' ∧ c = c' ∧ d = d' := by decide

theorem word_solve {a b c d a' b' c' d' : Word} (h1 : b ^^^ c ^^^ d = b' ^^^ c' ^^^ d')
    (h2 : c ^^^ d ^^^ a = c' ^^^ d' ^^^ a') (h3 : d ^^^ a ^^^ b = d' ^^^ a' ^^^ b')
    (h4 : a ^^^ b ^^^ c = a' ^^^ b' ^^^ c') : a = a' ∧ b = b' ∧ c = c' ∧ d = d' := by
  have key : ∀ i, a.getLsbD i = a'.getLsbD i ∧ b.getLsbD i = b'.getLsbD i ∧ c.getLsbD i = c'.getLsbD i ∧
      d.getLsbD i = d'.getLsbD i := by
    intro i
    have g1 := congrArg (fun w : Word => w.getLsbD i) h1
    have g2 := congrArg (fun w : Word => w.getLsbD i) h2
    have g3 := congrArg (fun w : Word => w.getLsbD i) h3
    have g4 := congrArg (fun w : Word => w.getLsbD i) h4
    simp only [BitVec.getLsbD_xor] at g1 g2 g3 g4
    exact bool_solve _ _ _ _ _ _ _ _ g1 g2 g3 g4
  exact ⟨BitVec.eq_of_getLsbD_eq fun i _ => (key i).1, BitVec.eq_of_getLsbD_eq fun i _ => (key i).2.1,
    BitVec.eq_of_getLsbD_eq fun i _ => (key i).2.2.1, BitVec.eq_of_getLsbD_eq fun i _ => (key i).2.2.2⟩

/-- With the constants known, the accesses of the first four steps give the start. -/
theorem loopT_start {g : Word → Word} {m m' : Quad} {s0 s1 s2 s3 : Word} {ss : List Word}
    (h : loopT g m (s0 :: s1 :: s2 :: s3 :: ss) = loopT g m' (s0 :: s1 :: s2 :: s3 :: ss)) : m = m' := by
  obtain ⟨a, b, c, d⟩ := m
  obtain ⟨a', b', c', d'⟩ := m'
  obtain ⟨e0, h⟩ := loopT_cons h
  simp only [← e0] at h
  generalize g _ = t0 at h
  obtain ⟨e1, h⟩ := loopT_cons h
  simp only [← e1] at h
  generalize g _ = t1 at h
  obtain ⟨e2, h⟩ := loopT_cons h
  simp only [← e2] at h
  generalize g _ = t2 at h
  obtain ⟨e3, -⟩ := loopT_cons h
  simp only at e0 e1 e2 e3
  have f0 := xor_cancel e0
  have f1 : c ^^^ d ^^^ a = c' ^^^ d' ^^^ a' := by
    refine xor_cancel (k := t0 ^^^ s1) ?_
    rw [show c ^^^ d ^^^ a ^^^ (t0 ^^^ s1) = c ^^^ d ^^^ (a ^^^ t0) ^^^ s1 by ac_rfl, e1]
    ac_rfl
  have f2 : d ^^^ a ^^^ b = d' ^^^ a' ^^^ b' := by
    refine xor_cancel (k := t0 ^^^ t1 ^^^ s2) ?_
    rw [show d ^^^ a ^^^ b ^^^ (t0 ^^^ t1 ^^^ s2) = d ^^^ (a ^^^ t0) ^^^ (b ^^^ t1) ^^^ s2 by ac_rfl, e2]
    ac_rfl
  have f3 : a ^^^ b ^^^ c = a' ^^^ b' ^^^ c' := by
    refine xor_cancel (k := t0 ^^^ t1 ^^^ t2 ^^^ s3) ?_
    rw [show a ^^^ b ^^^ c ^^^ (t0 ^^^ t1 ^^^ t2 ^^^ s3) = (a ^^^ t0) ^^^ (b ^^^ t1) ^^^ (c ^^^ t2) ^^^ s3 by ac_rfl, e3]
    ac_rfl
  obtain ⟨rfl, rfl, rfl, rfl⟩ := word_solve f0 f1 f2 f3
  rfl

/-- With the start known, the accesses give the constants. -/
theorem loopT_consts {g : Word → Word} : ∀ (ss ss' : List Word) (m : Quad), ss.length = ss'.length →
    loopT g m ss = loopT g m ss' → ss = ss' := by
  intro ss
  induction ss with
  | nil => intro ss' m hl _; exact (List.length_eq_zero_iff.1 hl.symm).symm
  | cons s ss ih =>
    intro ss' m hl h
    cases ss' with
    | nil => simp at hl
    | cons s' ss' =>
      obtain ⟨e, h⟩ := loopT_cons h
      have e' : s = s' := by
        have := congrArg (m.b ^^^ m.c ^^^ m.d ^^^ ·) e
        simpa [← BitVec.xor_assoc] using this
      subst e'
      rw [ih ss' _ (by simpa using hl) h]

/-- The bytes of a block or key are determined by its words. -/
theorem loadQuad_inj {p q : Bytes} (hp : p.length = 16) (hq : q.length = 16) (h : loadQuad p = loadQuad q) : p = q := by
  have e := storeQuad_loadQuad p (by omega)
  have e' := storeQuad_loadQuad q (by omega)
  rw [h] at e
  rw [e] at e'
  rw [List.take_of_length_le (by omega), List.take_of_length_le (by omega)] at e'
  exact e'

/-- The start of the key schedule. -/
def keyStart (key : Bytes) : Quad :=
  ⟨(loadQuad key).a ^^^ fk.getD 0 0, (loadQuad key).b ^^^ fk.getD 1 0, (loadQuad key).c ^^^ fk.getD 2 0,
    (loadQuad key).d ^^^ fk.getD 3 0⟩

theorem keyStart_inj {key key' : Bytes} (hk : key.length = 16) (hk' : key'.length = 16)
    (h : keyStart key = keyStart key') : key = key' := by
  refine loadQuad_inj hk hk' ?_
  unfold keyStart at h
  obtain ⟨e1, e2, e3, e4⟩ := Quad.mk.inj h
  have f1 := xor_cancel e1
  have f2 := xor_cancel e2
  have f3 := xor_cancel e3
  have f4 := xor_cancel e4
  cases hq : loadQuad key
  cases hq' : loadQuad key'
  rw [hq, hq'] at f1 f2 f3 f4
  simp only at f1 f2 f3 f4
  rw [f1, f2, f3, f4]

theorem newCipherT_snd {key : Bytes} (hk : key.length = 16) : (newCipherT key).2 = loopT kt (keyStart key) ck := by
  unfold newCipherT
  rw [if_neg (by omega)]
  exact keyLoopT_snd _ _

theorem keyLoop_length (cs : List Word) : ∀ k, (keyLoop k cs).length = cs.length := by
  induction cs with
  | nil => intro k; rfl
  | cons c cs ih => intro k; show (_ :: keyLoop _ cs).length = _; rw [List.length_cons, ih]; rfl

theorem newCipher_keys {key : Bytes} {c : Cipher} (h : newCipher key = .ok c) :
    key.length = 16 ∧ c.subkeys = keyLoop (keyStart key) ck := by
  unfold newCipher at h
  by_cases hk : key.length ≠ 16
  · rw [if_pos hk] at h; cases h
  · rw [if_neg hk] at h
    exact ⟨by omega, by rw [← Except.ok.inj h]; rfl⟩

/-- Four round keys give the start of the key schedule. -/
theorem keyLoop_start {k k' : Quad} {c0 c1 c2 c3 : Word} {cs : List Word}
    (h : keyLoop k (c0 :: c1 :: c2 :: c3 :: cs) = keyLoop k' (c0 :: c1 :: c2 :: c3 :: cs)) : k = k' := by
  obtain ⟨a, b, c, d⟩ := k
  obtain ⟨a', b', c', d'⟩ := k'
  simp only [keyLoop, keyStep, List.cons.injEq] at h
  obtain ⟨e0, e1, e2, e3, -⟩ := h
  rw [e2, e1, e0] at e3
  have h3 := xor_cancel e3
  subst h3
  rw [e1, e0] at e2
  have h2 := xor_cancel e2
  subst h2
  rw [e0] at e1
  have h1 := xor_cancel e1
  subst h1
  have h0 := xor_cancel e0
  subst h0
  rfl

theorem generateSubkeys_inj {key key' : Bytes} {c c' : Cipher} (h : newCipher key = .ok c) (h' : newCipher key' = .ok c')
    (he : c.subkeys = c'.subkeys) : key = key' := by
  obtain ⟨hk, e⟩ := newCipher_keys h
  obtain ⟨hk', e'⟩ := newCipher_keys h'
  rw [e, e'] at he
  exact keyStart_inj hk hk' (keyLoop_start he)

theorem cryptBlockT_snd {ks : List Word} {h : Heap} {dst src : Slice} {d : Bool} (hs : 16 ≤ src.len) :
    (cryptBlockT ks h dst src d).2 = loopT t (loadQuad (src.read h)) (if d then ks.reverse else ks) := by
  unfold cryptBlockT
  rw [if_neg (by omega)]
  exact roundLoopT_snd _ _

/-- The accesses of `Encrypt` (or `Decrypt`, if `d`). -/
def accesses (c : Cipher) (h : Heap) (dst src : Slice) (d : Bool) : List Byte :=
  (if d then c.decryptT h dst src else c.encryptT h dst src).2

theorem accesses_eq {c : Cipher} {h : Heap} {dst src : Slice} {d : Bool} (hs : 16 ≤ src.len) :
    accesses c h dst src d = loopT t (loadQuad (src.read h)) (if d then c.subkeys.reverse else c.subkeys) := by
  rw [← cryptBlockT_snd hs (dst := dst)]
  cases d <;> rfl

/-- **C132** The part that holds: how many accesses are made depends on no secret. `NewCipher` makes 128 for every key
it takes, `Encrypt` and `Decrypt` make 128 for every key and block. Missing: that the accessed entries tell nothing, which
is false (below). -/
theorem C132_count_partial (key : Bytes) (c : Cipher) (hc : newCipher key = .ok c) (h : Heap) (dst src : Slice)
    (hs : 16 ≤ src.len) (d : Bool) :
    (newCipherT key).2.length = 128 ∧ (accesses c h dst src d).length = 128 := by
  obtain ⟨hk, e⟩ := newCipher_keys hc
  refine ⟨by rw [newCipherT_snd hk, loopT_length]; rfl, ?_⟩
  rw [accesses_eq hs, loopT_length]
  have : c.subkeys.length = 32 := by rw [e, keyLoop_length]; rfl
  cases d
  · simp [this]
  · simp [this]

/-- **C132** (negation) The entries that `NewCipher` reads tell the whole key: different keys make it read different
entries. -/
theorem C132_key_fails (key key' : Bytes) (hk : key.length = 16) (hk' : key'.length = 16)
    (h : (newCipherT key).2 = (newCipherT key').2) : key = key' := by
  rw [newCipherT_snd hk, newCipherT_snd hk'] at h
  exact keyStart_inj hk hk' (loopT_start (ss := ck.drop 4) h)

/-- **C132** (negation) The first sixteen of these accesses are enough. -/
theorem C132_key_first (key key' : Bytes) (hk : key.length = 16) (hk' : key'.length = 16)
    (h : (newCipherT key).2.take 16 = (newCipherT key').2.take 16) : key = key' := by
  rw [newCipherT_snd hk, newCipherT_snd hk'] at h
  have e : ∀ k, (loopT kt k ck).take 16 = loopT kt k (ck.take 4) := fun k => rfl
  rw [e, e] at h
  exact keyStart_inj hk hk' (loopT_start (ss := []) h)

/-- **C132** (negation) Whoever knows one block that is encrypted (or one that is decrypted) and sees the entries read in
that call knows the key. -/
theorem C132_known_block (key key' : Bytes) (c c' : Cipher) (hc : newCipher key = .ok c) (hc' : newCipher key' = .ok c')
    (h h' : Heap) (dst dst' src src' : Slice) (hs : src.len = 16) (hs' : src'.len = 16) (d : Bool)
    (hb : src.read h = src'.read h') (ht : accesses c h dst src d = accesses c' h' dst' src' d) : key = key' := by
  rw [accesses_eq (by omega), accesses_eq (by omega), hb] at ht
  obtain ⟨_, e⟩ := newCipher_keys hc
  obtain ⟨_, e'⟩ := newCipher_keys hc'
  have hl : c.subkeys.length = c'.subkeys.length := by rw [e, e', keyLoop_length, keyLoop_length]
  refine generateSubkeys_inj hc hc' ?_
  cases d
  · simpa using loopT_consts _ _ _ (by simpa using hl) ht
  · simpa using loopT_consts _ _ _ (by simpa using hl) ht

/-- **C132** (negation) Under one key, the entries that `Encrypt` or `Decrypt` reads tell the block. -/
theorem C132_known_key (key : Bytes) (c : Cipher) (hc : newCipher key = .ok c)
    (h h' : Heap) (dst dst' src src' : Slice) (hv : src.Valid h) (hv' : src'.Valid h')
    (hs : src.len = 16) (hs' : src'.len = 16) (d : Bool)
    (ht : accesses c h dst src d = accesses c h' dst' src' d) : src.read h = src'.read h' := by
  rw [accesses_eq (by omega), accesses_eq (by omega)] at ht
  obtain ⟨_, e⟩ := newCipher_keys hc
  have hl : (if d then c.subkeys.reverse else c.subkeys).length = 32 := by
    have : c.subkeys.length = 32 := by rw [e, keyLoop_length]; rfl
    cases d <;> simp [this]
  have hr : ∀ (s : Slice) (h : Heap), s.Valid h → s.len = 16 → (s.read h).length = 16 := by
    intro s h hv hs
    obtain ⟨_, h1, h2⟩ := hv
    unfold Slice.read
    rw [List.length_take, List.length_drop]
    omega
  refine loadQuad_inj (hr _ _ hv hs) (hr _ _ hv' hs') ?_
  match hks : (if d then c.subkeys.reverse else c.subkeys), hl with
  | s0 :: s1 :: s2 :: s3 :: ss, _ =>
    rw [hks] at ht
    exact loopT_start ht

/-- The part of the table that holds an entry: the table starts on a cache line, and a line of 64 bytes holds sixteen
entries. -/
def lineOf (b : Byte) : Byte := b >>> 4

theorem lineOf_xor (a b : Byte) : lineOf (a ^^^ b) = lineOf a ^^^ lineOf b := BitVec.ushiftRight_xor_distrib ..

theorem byte_of_word (key : Bytes) (hk : key.length = 16) (j : Nat) (hj : j + 4 ≤ 16) :
    wordIdx (loadWord key j) = [key.getD (j + 3) 0, key.getD (j + 2) 0, key.getD (j + 1) 0, key.getD j 0] := by
  have e := wordBytes_loadWord key j (by omega)
  have e2 : (key.drop j).take 4 = [key.getD j 0, key.getD (j + 1) 0, key.getD (j + 2) 0, key.getD (j + 3) 0] := by
    refine List.ext_getElem (by simp; omega) fun i h1 h2 => ?_
    have h4 : i < 4 := by simpa using h2
    rw [List.getElem_take, List.getElem_drop]
    rcases i with _ | _ | _ | _ | i
    all_goals first | omega | skip
    all_goals simp [List.getD_eq_getElem?_getD]
    all_goals rw [List.getElem?_eq_getElem (by omega)]
    all_goals rfl
  rw [e2] at e
  have := congrArg List.reverse e
  simpa [wordIdx, wordBytes] using this

theorem wordIdx_lines (x y : Word) : (wordIdx (x ^^^ y)).map lineOf =
    List.zipWith (· ^^^ ·) ((wordIdx x).map lineOf) ((wordIdx y).map lineOf) := by
  simp [wordIdx, lineOf, BitVec.ushiftRight_xor_distrib, BitVec.setWidth_xor]

theorem zipXor_cancel : ∀ {x y k : List Byte}, x.length = k.length → y.length = k.length →
    List.zipWith (· ^^^ ·) x k = List.zipWith (· ^^^ ·) y k → x = y := by
  intro x
  induction x with
  | nil =>
    intro y k h1 h2 _
    rw [← h1] at h2
    exact (List.length_eq_zero_iff.1 h2).symm
  | cons a x ih =>
    intro y k h1 h2 h
    cases k with
    | nil => simp at h1
    | cons c k =>
      cases y with
      | nil => simp at h2
      | cons b y =>
        simp only [List.zipWith_cons_cons, List.cons.injEq] at h
        have e : a = b := by
          have := congrArg (· ^^^ c) h.1
          simpa [BitVec.xor_assoc] using this
        rw [e, ih (by simpa using h1) (by simpa using h2) h.2]

/-- **C132** (negation) The cache lines alone tell bits of the key: those of the first four accesses of `NewCipher` tell
the upper halves of the bytes of `key[4:8] ^ key[8:12] ^ key[12:16]`, which are sixteen bits. -/
theorem C132_lines (key key' : Bytes) (hk : key.length = 16) (hk' : key'.length = 16)
    (h : ((newCipherT key).2.take 4).map lineOf = ((newCipherT key').2.take 4).map lineOf) (j : Nat) (hj : j < 4) :
    (key.getD (4 + j) 0 ^^^ key.getD (8 + j) 0 ^^^ key.getD (12 + j) 0) >>> 4 =
      (key'.getD (4 + j) 0 ^^^ key'.getD (8 + j) 0 ^^^ key'.getD (12 + j) 0) >>> 4 := by
  rw [newCipherT_snd hk, newCipherT_snd hk'] at h
  have e : ∀ p, (loopT kt (keyStart p) ck).take 4 = wordIdx ((loadWord p 4 ^^^ loadWord p 8 ^^^ loadWord p 12)
      ^^^ (fk.getD 1 0 ^^^ fk.getD 2 0 ^^^ fk.getD 3 0 ^^^ ck.getD 0 0)) := by
    intro p
    show wordIdx _ = _
    congr 1
    show loadWord p 4 ^^^ _ ^^^ (loadWord p 8 ^^^ _) ^^^ (loadWord p 12 ^^^ _) ^^^ _ = _
    ac_rfl
  rw [e, e, wordIdx_lines, wordIdx_lines (loadWord key' 4 ^^^ loadWord key' 8 ^^^ loadWord key' 12)] at h
  generalize fk.getD 1 0 ^^^ fk.getD 2 0 ^^^ fk.getD 3 0 ^^^ ck.getD 0 0 = K at h
  have hl : ∀ x : Word, ((wordIdx x).map lineOf).length = 4 := fun x => by simp [wordIdx]
  have h := zipXor_cancel ((hl _).trans (hl _).symm) ((hl _).trans (hl _).symm) h
  simp only [wordIdx_lines, byte_of_word key hk 4 (by omega), byte_of_word key hk 8 (by omega),
    byte_of_word key hk 12 (by omega), byte_of_word key' hk' 4 (by omega), byte_of_word key' hk' 8 (by omega),
    byte_of_word key' hk' 12 (by omega), List.map_cons, List.map_nil, List.zipWith_cons_cons, List.zipWith_nil_right,
    ← lineOf_xor, List.cons.injEq, and_true] at h
  obtain ⟨h3, h2, h1, h0⟩ := h
  rcases j with _ | _ | _ | _ | j
  · exact h0
  · exact h1
  · exact h2
  · exact h3
  · omega

/-- Keys for which the entries differ, and two whose lines differ. -/
example : (newCipherT (beFix 16 0x0123456789abcdeffedcba9876543210)).2.take 4 = [0x69, 0xcb, 0x83, 0x82] ∧
    (newCipherT (beFix 16 0x0123456789abcdeffedcba9876543211)).2.take 4 = [0x68, 0xcb, 0x83, 0x82] ∧
    ((newCipherT (beFix 16 0x0123456789abcdeffedcba9876543230)).2.take 4).map lineOf ≠
      ((newCipherT (beFix 16 0x0123456789abcdeffedcba9876543210)).2.take 4).map lineOf := by decide +kernel

end Verif.Props
