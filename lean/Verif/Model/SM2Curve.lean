import Verif.Base.Curves
/-!
# Model of sm2/curves.go

The curve object as a global that is written field by field, and `SM2P256V1` as a goroutine program
around `sync.Once`. Steps of different goroutines interleave freely; memory is sequentially consistent.
-/
namespace Verif.SM2Curve

/-- sm2/curves.go:38-45: the package variable `p256` (pointer to `CurveParams` plus `a`). `params = none`
is the nil pointer, `none` in a field is the zero value of the field. -/
structure Params where
  name : Option String := none
  P : Option Nat := none
  N : Option Nat := none
  B : Option Nat := none
  Gx : Option Nat := none
  Gy : Option Nat := none
  bitSize : Option Nat := none
  deriving DecidableEq, Repr

/-- sm2/curves.go:38-45 -/
structure Global where
  params : Option Params := none
  a : Option Bytes := none
  deriving DecidableEq, Repr

/-- sm2/curves.go:56-59: the bytes of the coefficient `a`. -/
def aBytes : Bytes :=
  [0xFF, 0xFF, 0xFF, 0xFE, 0xFF, 0xFF, 0xFF, 0xFF, 0xFF, 0xFF, 0xFF, 0xFF, 0xFF, 0xFF, 0xFF, 0xFF,
   0xFF, 0xFF, 0xFF, 0xFF, 0x00, 0x00, 0x00, 0x00, 0xFF, 0xFF, 0xFF, 0xFF, 0xFF, 0xFF, 0xFF, 0xFC]

/-- sm2/curves.go:47-60 `initP256`: the assignments in program order. -/
def initWrites : List (Global → Global) :=
  let upd (f : Params → Params) : Global → Global := fun g => { g with params := g.params.map f }
  [ fun g => { g with params := some { name := some "sm2p256v1" } },
    upd fun q => { q with P := some 0xFFFFFFFEFFFFFFFFFFFFFFFFFFFFFFFFFFFFFFFF00000000FFFFFFFFFFFFFFFF },
    upd fun q => { q with N := some 0xFFFFFFFEFFFFFFFFFFFFFFFFFFFFFFFF7203DF6B21C6052B53BBF40939D54123 },
    upd fun q => { q with B := some 0x28E9FA9E9D9F5E344D5A9E4BCF6509A7F39789F515AB8F92DDBCBD414D940E93 },
    upd fun q => { q with Gx := some 0x32C4AE2C1F1981195F9904466A39C9948FE30BBFF2660BE1715A4589334C74C7 },
    upd fun q => { q with Gy := some 0xBC3736A2F4F6779C59BDCEE36B692153D0A9877CC62A474002DF32E52139F0A0 },
    upd fun q => { q with bitSize := some 256 },
    fun g => { g with a := some aBytes } ]

/-- Program counter of a goroutine that calls `SM2P256V1` (sm2/curves.go:70-74), with the body of
`sync.Once.Do` (sync/once.go) written out. -/
inductive PC where
  /-- before `initonce.Do`: next step loads `done` -/
  | load
  /-- `doSlow`: next step takes the mutex, if free -/
  | lock
  /-- inside the mutex: next step tests `done` again -/
  | recheck
  /-- inside `initP256`, about to do assignment `k` -/
  | init (k : Nat)
  /-- deferred `atomic.StoreUint32(&o.done, 1)` -/
  | store
  /-- deferred `o.m.Unlock()` -/
  | unlock
  /-- `return p256`: next step copies the struct -/
  | ret
  /-- returned the copy -/
  | done (g : Global)
  deriving DecidableEq, Repr

/-- sm2/curves.go:27, 43-45, 70-74: shared memory plus the program counters of the goroutines (`none`: no such
goroutine). `starts` counts how often `initP256` was entered. -/
structure State where
  done : Bool := false
  owner : Option Nat := none
  mem : Global := {}
  starts : Nat := 0
  pcs : Nat → Option PC := fun _ => none

/-- sm2/curves.go:27, 43-45, 70-74: set the program counter of goroutine `i`. -/
def State.goto (s : State) (i : Nat) (pc : PC) : State :=
  { s with pcs := fun j => if j = i then some pc else s.pcs j }

/-- sm2/curves.go:27, 43-45, 70-74: one atomic step of goroutine `i` (or its creation). -/
inductive Step : State → State → Prop where
  | spawn {s} (i : Nat) (h : s.pcs i = none) : Step s (s.goto i .load)
  | loadDone {s} (i : Nat) (h : s.pcs i = some .load) (hd : s.done = true) : Step s (s.goto i .ret)
  | loadNot {s} (i : Nat) (h : s.pcs i = some .load) (hd : s.done = false) : Step s (s.goto i .lock)
  | lock {s} (i : Nat) (h : s.pcs i = some .lock) (hl : s.owner = none) :
      Step s ({ s with owner := some i }.goto i .recheck)
  | recheckDone {s} (i : Nat) (h : s.pcs i = some .recheck) (hd : s.done = true) :
      Step s (s.goto i .unlock)
  | recheckNot {s} (i : Nat) (h : s.pcs i = some .recheck) (hd : s.done = false) :
      Step s ({ s with starts := s.starts + 1 }.goto i (.init 0))
  | write {s} (i k : Nat) (f : Global → Global) (h : s.pcs i = some (.init k))
      (hk : initWrites[k]? = some f) :
      Step s ({ s with mem := f s.mem }.goto i (.init (k + 1)))
  | initEnd {s} (i k : Nat) (h : s.pcs i = some (.init k)) (hk : initWrites.length ≤ k) :
      Step s (s.goto i .store)
  | store {s} (i : Nat) (h : s.pcs i = some .store) : Step s ({ s with done := true }.goto i .unlock)
  | unlock {s} (i : Nat) (h : s.pcs i = some .unlock) : Step s ({ s with owner := none }.goto i .ret)
  | ret {s} (i : Nat) (h : s.pcs i = some .ret) : Step s (s.goto i (.done s.mem))

/-- sm2/curves.go:27, 43-45, 70-74: states reachable from program start: nothing initialised, no goroutine. -/
inductive Reachable : State → Prop where
  | start : Reachable {}
  | step {s t} : Reachable s → Step s t → Reachable t

end Verif.SM2Curve
