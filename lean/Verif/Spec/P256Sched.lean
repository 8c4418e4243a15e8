/-
Vocabulary for the properties of concurrent use of the amd64 curve: which histories are meant, and what
each call should return.
-/
import Verif.Model.P256Sched
import Verif.Spec.P256Prog

namespace Verif.Spec.P256

open Verif.X64 Verif.X64.P256

/-- The arrays a method call allocates. -/
def arrays : Job → List (X64.W × Nat)
  | .scalarMult f g _ _ _ => f.list ++ g.list
  | .scalarBaseMult f g i _ => f.list ++ g.list ++ i.list
  | .combinedMult f h g i _ _ _ _ => f.list ++ h.list ++ g.list ++ i.list
  | .inverse f _ => f.list

/-- The arrays of the global variables p256Precomputed and rr. -/
def globals (G : Globals) : List (X64.W × Nat) := [(G.table, 4736), (G.rr, 1)]

variable {ι : Type}

/-- What the Go runtime and the rest of the program ensure.  The arrays of a new call do not overlap each
other, the global variables or the arrays of calls that have not returned; a goroutine is in one call at a
time; the rest of the program writes neither the global variables nor the arrays of calls that have not
returned. -/
def Allowed (G : Globals) (y : Sys ι) : Event ι → Prop
  | .call i j => y.running i = none ∧ Apart (arrays j ++ globals G) ∧
    ∀ k j' t, y.running k = some (j', t) → ∀ b ∈ wordsOf (arrays j), b ∉ wordsOf (arrays j')
  | .step _ _ => True
  | .write a _ => a ∉ wordsOf (globals G) ∧ ∀ k j t, y.running k = some (j, t) → a ∉ wordsOf (arrays j)

/-- The program before the first call: rr has the value it is declared with, the contents of all other
memory are arbitrary. -/
def Initial (G : Globals) (y : Sys ι) : Prop :=
  rd4 y.mem G.rr = rr ∧ y.once = .fresh ∧ (∀ i, y.running i = none) ∧ y.log = []

/-- The states of the program in some history of events: any number of goroutines and calls, in any
interleaving. -/
inductive Reachable [DecidableEq ι] (G : Globals) : Sys ι → Prop where
  | initial {y : Sys ι} (h : Initial G y) : Reachable G y
  | next {y : Sys ι} (h : Reachable G y) (e : Event ι) (he : Allowed G y e) : Reachable G (y.next G e)

/-- What a call of a method returns when it runs alone. -/
def answer : Job → List Nat
  | .scalarMult _ _ x y scalar => [(scalarMult x y scalar).1, (scalarMult x y scalar).2]
  | .scalarBaseMult _ _ _ scalar => [(scalarBaseMult scalar).1, (scalarBaseMult scalar).2]
  | .combinedMult _ _ _ _ x y baseScalar scalar =>
    [(combinedMult x y baseScalar scalar).1, (combinedMult x y baseScalar scalar).2]
  | .inverse _ k => [inverse k]

/-- An infinite history: the states and the events between them. -/
structure History [DecidableEq ι] (G : Globals) (y : Nat → Sys ι) (e : Nat → Event ι) : Prop where
  initial : Initial G (y 0)
  allowed : ∀ n, Allowed G (y n) (e n)
  next : ∀ n, y (n + 1) = (y n).next G (e n)

/-- The scheduler gives each goroutine that is in a call another step at some time. -/
def Fair (y : Nat → Sys ι) (e : Nat → Event ι) : Prop :=
  ∀ i n, (y n).running i ≠ none → ∃ n' ≥ n, ∃ s, e n' = .step i s

end Verif.Spec.P256
