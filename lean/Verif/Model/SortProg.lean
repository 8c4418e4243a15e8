import Verif.Model.Keypair
/-!
# Model: `SortPublicKeys` step by step

(keypair/publist.go:40-106.) `sort.Sort` is external: here it is any program that, after asking for the
length, calls `Less` and `Swap` in an order that may depend on the answers of `Less` only. `Less` may panic.
The panic goes through `sort.Sort` to the caller of `SortPublicKeys`; the slice is then as it was at that
moment.
-/
namespace Verif.Keypair

/-- keypair/publist.go:40-44 (`sort.Sort`): a run of `sort.Sort` after its call of `Len`: a tree of calls of
`Less(i, j)` and `Swap(i, j)`. Every path is finite. -/
inductive SortProg where
  | done
  | less (i j : Nat) (k : Bool → SortProg)
  | swap (i j : Nat) (k : SortProg)

/-- keypair/publist.go:40-44 (`sort.Sort`): how `SortPublicKeys` ended. -/
inductive SortEnd where
  | returned
  | panicked (m : String)
  deriving DecidableEq, Repr

/-- Running the calls on a slice, with `lt` for `Less` (keypair/publist.go:52-102) and
keypair/publist.go:104-106 `Swap`. An index outside the slice panics. The result is how it ended and the
contents of the slice at the end. -/
def SortProg.run {α : Type} (lt : α → α → Res Bool) : SortProg → List α → SortEnd × List α
  | .done, l => (.returned, l)
  | .less i j k, l =>
    match l[i]?, l[j]? with
    | some a, some b =>
      match lt a b with
      | .ok r => (k r).run lt l
      | .err m => (.panicked m, l)
      | .panic m => (.panicked m, l)
    | _, _ => (.panicked "index out of range", l)
  | .swap i j k, l =>
    match l[i]?, l[j]? with
    | some a, some b => k.run lt ((l.set i b).set j a)
    | _, _ => (.panicked "index out of range", l)

/-- keypair/publist.go:40-44 (`sort.Sort`): the contract of `sort.Sort`: for elements of any type with a
strict weak order, it returns and no element is less than one before it. -/
def SortsCorrectly (P : Nat → SortProg) : Prop :=
  ∀ (α : Type) (lt : α → α → Bool) (l : List α),
    (∀ a ∈ l, lt a a = false) →
    (∀ a ∈ l, ∀ b ∈ l, ∀ c ∈ l, lt a b = true → lt b c = true → lt a c = true) →
    (∀ a ∈ l, ∀ b ∈ l, ∀ c ∈ l, lt a b = false → lt b c = false → lt a c = false) →
    ∃ s, (P l.length).run (fun a b => .ok (lt a b)) l = (.returned, s) ∧
      s.Pairwise (fun a b => lt b a = false)

/-- keypair/publist.go:40-44 `SortPublicKeys` with the sorting program `P`: how it ends, and the contents
of the caller's slice afterwards, which is the slice that is returned. -/
def sortInPlace (E : Ext) (P : Nat → SortProg) (list : List PublicKey) : SortEnd × List PublicKey :=
  (P list.length).run (less E) list

/-- keypair/publist.go:40-44 (`sort.Sort`): package sort, `insertionSort`, inner loop: moves element `j` down
while it is less than the one before it. (`sort.Sort` uses this for fewer than 12 elements.) -/
def insertionInner : Nat → SortProg → SortProg
  | 0, k => k
  | j + 1, k => .less (j + 1) j fun r => if r then .swap (j + 1) j (insertionInner j k) else k

/-- keypair/publist.go:40-44 (`sort.Sort`): package sort, `insertionSort`, outer loop: `m` more elements from
`i` on. -/
def insertionOuter : Nat → Nat → SortProg
  | 0, _ => .done
  | m + 1, i => insertionInner i (insertionOuter m (i + 1))

/-- keypair/publist.go:40-44 (`sort.Sort`): package sort, `insertionSort(data, 0, n)`. -/
def insertionSort (n : Nat) : SortProg := insertionOuter (n - 1) 1

end Verif.Keypair
