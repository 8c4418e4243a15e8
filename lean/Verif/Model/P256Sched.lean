/-
Goroutines that run the methods of sm2/p256_amd64.go at the same time, interleaved instruction by
instruction, on one memory.

Simplifications: memory accesses take effect in the order of the interleaving (the accesses of one
goroutine to arrays of its own are not seen by others, and the shared table is read only after
sync.Once has published it, so the Go memory model allows no other outcome); sync.Once is modelled by its
documented behaviour, not by its code; copy reads all words before it writes the first one, one word at a
time; the words of a big.Int are not in this memory.
-/
import Verif.Model.P256Prog

namespace Verif.X64

/-- sm2/p256_asm_amd64.s:93-2794 (the routines, an instruction at a time): the registers, flags, frame and
arguments of a state. -/
def St.regs (s : St) : St := { s with mem := fun _ => 0 }

/-- sm2/p256_asm_amd64.s:93-2794 (the routines, an instruction at a time): the registers, flags, frame and
arguments of `s`, and memory `m`. -/
def St.on (s : St) (m : W → W) : St := { s with mem := m }

namespace P256

/-! ### One call, instruction by instruction -/

/-- sm2/p256_asm_amd64.s:93-2794 (the routines, an instruction at a time): a part of a routine: instructions,
a loop `label: body; JNE label`, or its jump back. -/
inductive Piece where
  | code (l : List Instr)
  | loop (body : List Instr)
  | back (body : List Instr)

/-- sm2/p256_asm_amd64.s: the routine a call calls. -/
def Call.routine : Call W → List Piece
  | .sqr _ _ => [.code P256.sqr]
  | .mul _ _ _ => [.code P256.mul]
  | .ordMul _ _ _ => [.code P256.ordMul]
  | .fromMont _ _ => [.code P256.fromMont]
  | .negCond _ _ => [.code P256.negCond]
  | .movCond _ _ _ _ => [.code P256.movCond]
  | .select _ _ _ => [.code select_1, .loop select_2, .code select_3]
  | .selectBase _ _ _ => [.code selectBase_1, .loop selectBase_2, .code selectBase_3]
  | .add _ _ _ => [.code pointAddAsm]
  | .double _ _ => [.code pointDoubleAsm]
  | .addAffine _ _ _ _ _ _ => [.code pointAddAffineAsm]
  | .toBig _ _ => [.code bigToLittle]
  | .copy _ _ _ | .store _ _ => []

/-- sm2/p256_amd64.go:84-130 (calls of the routines) and 114, 446 (`copy`): where a goroutine is: between
calls; in a routine, with the registers, the instructions up to the next label and the rest of the routine; in
a copy, with the words to read (address and where they go) and the words to write. -/
inductive Ctl where
  | idle
  | asm (s : St) (cur : List Instr) (rest : List Piece)
  | move (reads : List (W × W)) (writes : List (W × W))

/-- sm2/p256_amd64.go:84-130 (calls of the routines) and 114, 446 (`copy`): the word `i` of an array. -/
def nth (a : W) (i : Nat) : W := a + BitVec.ofNat 64 (8 * i)

/-- sm2/p256_amd64.go:84-130 (calls of the routines) and 114, 446 (`copy`): the start of a call, with any
registers. -/
def Call.start (c : Call W) (s : St) : Ctl :=
  match c with
  | .copy d a n => .move ((List.range (4 * n)).map fun i => (nth a i, nth d i)) []
  | .store d v => .move [] ((List.range 4).map fun i => (nth d i, BitVec.ofNat 64 (v / 2 ^ (64 * i))))
  | c => .asm { s.regs with arg := c.arg } [] c.routine

/-- sm2/p256_amd64.go:84-130 (calls of the routines) and 114, 446 (`copy`): one step of a call: an
instruction, a jump, a word read or a word written. -/
def micro : Ctl → (W → W) → Ctl × (W → W)
  | .idle, m => (.idle, m)
  | .asm s (i :: cur) rest, m => (.asm (step (s.on m) i).regs cur rest, (step (s.on m) i).mem)
  | .asm s [] (.code l :: rest), m => (.asm s l rest, m)
  | .asm s [] (.loop b :: rest), m => (.asm s b (.back b :: rest), m)
  | .asm s [] (.back b :: rest), m =>
    if s.zf then (.asm s [] rest, m) else (.asm s b (.back b :: rest), m)
  | .asm _ [] [], m => (.idle, m)
  | .move ((a, d) :: reads) writes, m => (.move reads (writes ++ [(d, m a)]), m)
  | .move [] ((d, v) :: writes), m => (.move [] writes, upd m d v)
  | .move [] [], m => (.idle, m)

/-! ### Goroutines -/

/-- sm2/p256_amd64.go:265-322, 515-516: what a goroutine does: a call, `precomputeOnce.Do(initTable)` with the
calls of initTable, and the return of initTable to Do. -/
inductive Act where
  | call (c : Call W)
  | once (init : List (Call W))
  | leave

/-- sm2/p256_amd64.go:47-50, 516: the state of precomputeOnce: Do was not called, a goroutine is in initTable,
initTable has returned. -/
inductive Once where
  | fresh
  | busy
  | done

/-- sm2/p256_amd64.go:265-322, 515-516: a goroutine: where it is, and what it still has to do. -/
structure Thread where
  ctl : Ctl
  todo : List Act

/-- sm2/p256_amd64.go:47-50, 256: the global variables p256Precomputed and rr: the addresses of the arrays
they refer to. -/
structure Globals where
  (table rr : W)

/-- sm2/p256_amd64.go:265-322, 515-516: one step of a goroutine, with any registers `s` when a routine starts. -/
def Thread.step (t : Thread) (s : St) (o : Once) (m : W → W) : Thread × Once × (W → W) :=
  match t.ctl, t.todo with
  | .idle, [] => (t, o, m)
  | .idle, .call c :: todo => (⟨c.start s, todo⟩, o, m)
  | .idle, .once init :: todo =>
    match o with
    | .fresh => (⟨.idle, init.map .call ++ .leave :: todo⟩, .busy, m)
    | .busy => (t, o, m)
    | .done => (⟨.idle, todo⟩, o, m)
  | .idle, .leave :: todo => (⟨.idle, todo⟩, .done, m)
  | ctl, todo => (⟨(micro ctl m).1, todo⟩, o, (micro ctl m).2)

/-- sm2/p256_amd64.go:265-322, 515-516: a call of a method, with the arrays it allocates. -/
inductive Job where
  | scalarMult (f : MultArrays W) (g : AffineArrays W) (x y : Nat) (scalar : Bytes)
  | scalarBaseMult (f : BaseArrays W) (g : AffineArrays W) (i : InitArrays W) (scalar : Bytes)
  | combinedMult (f : BaseArrays W) (h : MultArrays W) (g : AffineArrays W) (i : InitArrays W) (x y : Nat)
      (baseScalar scalar : Bytes)
  | inverse (f : InverseArrays W) (k : Int)

/-- sm2/p256_amd64.go:265-322, 515-516: what the method does. -/
def Job.acts (G : Globals) : Job → List Act
  | .scalarMult f g x y s => (scalarMultCalls f g G.rr x y s).map .call
  | .scalarBaseMult f g i s => .once (initCalls i G.table) :: (scalarBaseMultCalls f g G.table s).map .call
  | .combinedMult f h g i x y b s =>
    .once (initCalls i G.table) :: (combinedMultCalls f h g G.table G.rr x y b s).map .call
  | .inverse f k => (inverseCalls f k).map .call

/-- sm2/p256_amd64.go:337-342: the 32 bytes at an address. -/
def bytesAt (m : W → W) (a : W) : Bytes :=
  (List.range 4).flatMap fun i => (List.range 8).map fun j => ((m (nth a i)).extractLsb' (8 * j) 8)

/-- sm2/p256_amd64.go:265-322, 515-516: the numbers the method returns, from the memory when it returns. -/
def Job.result (m : W → W) : Job → List Nat
  | .scalarMult _ g _ _ _ | .scalarBaseMult _ g _ _ | .combinedMult _ _ g _ _ _ _ _ =>
    [natOfBytes (bytesAt m g.xOut), natOfBytes (bytesAt m g.yOut)]
  | .inverse f _ => [natOfBytes (bytesAt m f.xOut)]

/-- sm2/p256_amd64.go:265-322 called by any number of goroutines: the whole program: memory, precomputeOnce,
the goroutines that are in a method, and what the finished calls have returned. -/
structure Sys (ι : Type) where
  mem : W → W
  once : Once
  running : ι → Option (Job × Thread)
  log : List (Job × List Nat)

/-- sm2/p256_amd64.go:265-322 called by any number of goroutines: what happens next: a goroutine calls a
method, a goroutine does a step, or some other part of the program writes a word. -/
inductive Event (ι : Type) where
  | call (i : ι) (j : Job)
  | step (i : ι) (s : St)
  | write (a v : W)

variable {ι : Type} [DecidableEq ι]

/-- sm2/p256_amd64.go:265-322 called by any number of goroutines: the effect of an event. A goroutine that has
nothing left to do returns. -/
def Sys.next (G : Globals) (y : Sys ι) : Event ι → Sys ι
  | .call i j => { y with running := upd y.running i (some (j, ⟨.idle, j.acts G⟩)) }
  | .step i s =>
    match y.running i with
    | none => y
    | some (j, ⟨.idle, []⟩) =>
      { y with running := upd y.running i none, log := (j, j.result y.mem) :: y.log }
    | some (j, t) =>
      { y with
        running := upd y.running i (some (j, (t.step s y.once y.mem).1))
        once := (t.step s y.once y.mem).2.1
        mem := (t.step s y.once y.mem).2.2 }
  | .write a v => { y with mem := upd y.mem a v }

end P256

end Verif.X64
