import Verif.Model.Protect
/-!
# The JSON form of `ProtectedKey` and `ScryptParam`

keypair/encrypt.go gives the two structures JSON tags; wallets store keys in this form. The members of the
JSON objects are modelled, from the tags and the documented behaviour of encoding/json (external): names,
omitted members, base64 of byte slices, replacement of bytes that are not UTF-8, matching of names when
reading. The text of the objects (braces, quotes, escapes, white space) is not modelled: a JSON object is the
list of its members. Go strings are byte strings.
-/
namespace Verif.ProtectJSON

/-- keypair/encrypt.go:35-43 (json tags of `ProtectedKey`): a member's value. `obj` is an object whose values
are strings; `other` is anything else. -/
inductive JVal where
  | str (s : Bytes)
  | num (n : Int)
  | obj (m : List (Bytes × Bytes))
  | null
  | other
  deriving DecidableEq, Repr

/-- keypair/encrypt.go:35-43 (json tags of `ProtectedKey`): a JSON object: its members in order. -/
abbrev JObj := List (Bytes × JVal)

/-- keypair/encrypt.go:35-43 (json tags of `ProtectedKey`): the bytes of an ASCII string constant. -/
def ascii (s : String) : Bytes := s.toList.map fun c => BitVec.ofNat 8 c.toNat

/-- keypair/encrypt.go:35-43 `ProtectedKey`, all fields; `none` is a nil slice or map. A map is the list of
its entries in the order in which encoding/json writes them (sorted by key). -/
structure Prot where
  address : Bytes
  encAlg : Bytes
  key : Option Bytes
  alg : Bytes
  salt : Option Bytes
  hash : Bytes
  param : Option (List (Bytes × Bytes))
  deriving DecidableEq, Repr

/-! ## encoding/json, unicode/utf8 and encoding/base64, as far as needed -/

/-- keypair/encrypt.go:35-43 (json tags of `ProtectedKey`): a UTF-8 continuation byte. -/
def isCont (b : Byte) : Bool := 0x80 ≤ b.toNat && b.toNat ≤ 0xBF

/-- keypair/encrypt.go:35-43 (json tags of `ProtectedKey`): unicode/utf8 `DecodeRune`: the number of bytes of
the encoded code point at the start, 0 if there is none (`RuneError` of width 1). -/
def runeLen : Bytes → Nat
  | [] => 0
  | b0 :: t =>
    let n := b0.toNat
    if n < 0x80 then 1
    else if 0xC2 ≤ n ∧ n ≤ 0xDF then
      match t with
      | b1 :: _ => if isCont b1 then 2 else 0
      | _ => 0
    else if 0xE0 ≤ n ∧ n ≤ 0xEF then
      match t with
      | b1 :: b2 :: _ =>
        if isCont b1 ∧ isCont b2 ∧ (n = 0xE0 → 0xA0 ≤ b1.toNat) ∧ (n = 0xED → b1.toNat ≤ 0x9F) then 3 else 0
      | _ => 0
    else if 0xF0 ≤ n ∧ n ≤ 0xF4 then
      match t with
      | b1 :: b2 :: b3 :: _ =>
        if isCont b1 ∧ isCont b2 ∧ isCont b3 ∧ (n = 0xF0 → 0x90 ≤ b1.toNat) ∧ (n = 0xF4 → b1.toNat ≤ 0x8F)
        then 4 else 0
      | _ => 0
    else 0

/-- keypair/encrypt.go:35-43 (json tags of `ProtectedKey`): encoding/json, writing a string: every byte that
is not part of an encoded code point becomes U+FFFD. The first argument bounds the recursion; the length is
enough. -/
def fixFrom : Nat → Bytes → Bytes
  | 0, _ => []
  | fuel + 1, s =>
    match s with
    | [] => []
    | b :: t =>
      let n := runeLen (b :: t)
      if n = 0 then [0xEF, 0xBF, 0xBD] ++ fixFrom fuel t
      else (b :: t).take n ++ fixFrom fuel ((b :: t).drop n)

/-- keypair/encrypt.go:35-43 (json tags of `ProtectedKey`) -/
def fixUTF8 (s : Bytes) : Bytes := fixFrom s.length s

/-- keypair/encrypt.go:35-43 (json tags of `ProtectedKey`): encoding/base64 `StdEncoding`: the alphabet. -/
def b64Alphabet : Bytes := ascii "ABCDEFGHIJKLMNOPQRSTUVWXYZabcdefghijklmnopqrstuvwxyz0123456789+/"

/-- keypair/encrypt.go:35-43 (json tags of `ProtectedKey`) -/
def b64Char (d : Nat) : Byte := b64Alphabet.getD d 0

/-- keypair/encrypt.go:35-43 (json tags of `ProtectedKey`): `EncodeToString`. -/
def b64enc : Bytes → Bytes
  | [] => []
  | [a] => [b64Char (a.toNat / 4), b64Char (a.toNat % 4 * 16), 0x3D, 0x3D]
  | [a, b] => [b64Char (a.toNat / 4), b64Char (a.toNat % 4 * 16 + b.toNat / 16), b64Char (b.toNat % 16 * 4), 0x3D]
  | a :: b :: c :: t =>
    [b64Char (a.toNat / 4), b64Char (a.toNat % 4 * 16 + b.toNat / 16), b64Char (b.toNat % 16 * 4 + c.toNat / 64),
      b64Char (c.toNat % 64)] ++ b64enc t

/-- keypair/encrypt.go:35-43 (json tags of `ProtectedKey`) -/
def b64Index (c : Byte) : Option Nat := b64Alphabet.findIdx? (· == c)

/-- keypair/encrypt.go:35-43 (json tags of `ProtectedKey`): `DecodeString` (line breaks, which Go skips, are
errors here; trailing bits are ignored, as in Go). -/
def b64dec : Bytes → Option Bytes
  | [] => some []
  | a :: b :: c :: d :: t =>
    if t = [] ∧ c = 0x3D ∧ d = 0x3D then do
      let a ← b64Index a
      let b ← b64Index b
      pure [BitVec.ofNat 8 (a * 4 + b / 16)]
    else if t = [] ∧ d = 0x3D then do
      let a ← b64Index a
      let b ← b64Index b
      let c ← b64Index c
      pure [BitVec.ofNat 8 (a * 4 + b / 16), BitVec.ofNat 8 (b % 16 * 16 + c / 4)]
    else do
      let a ← b64Index a
      let b ← b64Index b
      let c ← b64Index c
      let d ← b64Index d
      let r ← b64dec t
      pure ([BitVec.ofNat 8 (a * 4 + b / 16), BitVec.ofNat 8 (b % 16 * 16 + c / 4),
        BitVec.ofNat 8 (c % 4 * 64 + d)] ++ r)
  | _ => none

/-- keypair/encrypt.go:35-43 (json tags of `ProtectedKey`): ASCII lower case; encoding/json compares member
names with field names ignoring case. (Of the non-ASCII characters that fold to ASCII letters, U+017F and
U+212A, no account is taken.) -/
def lower (s : Bytes) : Bytes := s.map fun b => if 0x41 ≤ b.toNat ∧ b.toNat ≤ 0x5A then b + 0x20 else b

/-- keypair/encrypt.go:35-43 (json tags of `ProtectedKey`): which field a member belongs to: the one with
exactly this name, else the first that agrees ignoring case. -/
def fieldOf (names : List Bytes) (name : Bytes) : Option Nat :=
  match names.findIdx? (· == name) with
  | some i => some i
  | none => names.findIdx? fun n => lower n == lower name

/-! ## ProtectedKey -/

/-- The tags of keypair/encrypt.go:36-42, in order. -/
def protNames : List Bytes :=
  [ascii "address", ascii "enc-alg", ascii "key", ascii "algorithm", ascii "salt", ascii "hash",
    ascii "parameters"]

/-- keypair/encrypt.go:35-43 (json tags of `ProtectedKey`): a byte slice: null if nil, else base64. -/
def jbytes : Option Bytes → JVal
  | none => .null
  | some b => .str (b64enc b)

/-- `json.Marshal` of a `ProtectedKey`: members in the order of the fields; `salt`, `hash` and `parameters`
are omitted when empty. -/
def marshal (p : Prot) : JObj :=
  [(ascii "address", .str (fixUTF8 p.address)), (ascii "enc-alg", .str (fixUTF8 p.encAlg)),
    (ascii "key", jbytes p.key), (ascii "algorithm", .str (fixUTF8 p.alg))] ++
  (if (p.salt.getD []).length = 0 then [] else [(ascii "salt", jbytes p.salt)]) ++
  (if p.hash.length = 0 then [] else [(ascii "hash", .str (fixUTF8 p.hash))]) ++
  (if (p.param.getD []).length = 0 then []
   else [(ascii "parameters", .obj ((p.param.getD []).map fun e => (fixUTF8 e.1, fixUTF8 e.2)))])

/-- keypair/encrypt.go:35-43 (json tags of `ProtectedKey`): setting a string field: null has no effect,
another type is an error. -/
def setStr (old : Bytes) : JVal → Res Bytes
  | .str s => .ok s
  | .null => .ok old
  | _ => .err "json: cannot unmarshal"

/-- keypair/encrypt.go:35-43 (json tags of `ProtectedKey`): setting a byte-slice field. -/
def setBytes (_old : Option Bytes) : JVal → Res (Option Bytes)
  | .str s =>
    match b64dec s with
    | some b => .ok (some b)
    | none => .err "illegal base64 data"
  | .null => .ok none
  | _ => .err "json: cannot unmarshal"

/-- keypair/encrypt.go:35-43 (json tags of `ProtectedKey`): assigning a map entry; the map is kept in the
order of first assignment. -/
def putEntry (m : List (Bytes × Bytes)) (e : Bytes × Bytes) : List (Bytes × Bytes) :=
  if m.any (fun x => x.1 == e.1) then m.map fun x => if x.1 == e.1 then e else x else m ++ [e]

/-- keypair/encrypt.go:35-43 (json tags of `ProtectedKey`): setting a map field: entries are added to the map
that is there. -/
def setMap (old : Option (List (Bytes × Bytes))) : JVal → Res (Option (List (Bytes × Bytes)))
  | .obj l => .ok (some (l.foldl putEntry (old.getD [])))
  | .null => .ok none
  | _ => .err "json: cannot unmarshal"

/-- keypair/encrypt.go:35-43 (json tags of `ProtectedKey`): one member of the object being read; members that
match no field are ignored. -/
def setMember (p : Prot) (e : Bytes × JVal) : Res Prot :=
  match fieldOf protNames e.1 with
  | some 0 => (setStr p.address e.2).map fun v => { p with address := v }
  | some 1 => (setStr p.encAlg e.2).map fun v => { p with encAlg := v }
  | some 2 => (setBytes p.key e.2).map fun v => { p with key := v }
  | some 3 => (setStr p.alg e.2).map fun v => { p with alg := v }
  | some 4 => (setBytes p.salt e.2).map fun v => { p with salt := v }
  | some 5 => (setStr p.hash e.2).map fun v => { p with hash := v }
  | some 6 => (setMap p.param e.2).map fun v => { p with param := v }
  | _ => .ok p

/-- `json.Unmarshal` into a `ProtectedKey` that has the value `p` before. (After a type error Go goes on with
the other members and returns the error in the end; here it stops.) -/
def unmarshalInto (p : Prot) : JObj → Res Prot
  | [] => .ok p
  | e :: l => (setMember p e).bind fun p => unmarshalInto p l

/-- keypair/encrypt.go:35-43 (json tags of `ProtectedKey`): the zero value of `ProtectedKey`. -/
def Prot.zero : Prot := ⟨[], [], none, [], none, [], none⟩

/-- keypair/encrypt.go:35-43 (json tags of `ProtectedKey`) -/
def unmarshal (o : JObj) : Res Prot := unmarshalInto .zero o

/-! ## ScryptParam -/

/-- The tags of keypair/encrypt.go:47-50. -/
def scryptNames : List Bytes := [ascii "p", ascii "n", ascii "r", ascii "dkLen"]

/-- `json.Marshal` of a `ScryptParam`; `dkLen` is omitted when 0. -/
def marshalScrypt (p : Keypair.ScryptParam) : JObj :=
  [(ascii "p", .num p.P), (ascii "n", .num p.N), (ascii "r", .num p.R)] ++
  (if p.DKLen = 0 then [] else [(ascii "dkLen", .num p.DKLen)])

/-- keypair/encrypt.go:46-51 (json tags of `ScryptParam`): setting an integer field (integers of any size; Go
has 64 bits). -/
def setInt (old : Int) : JVal → Res Int
  | .num n => .ok n
  | .null => .ok old
  | _ => .err "json: cannot unmarshal"

/-- keypair/encrypt.go:46-51 (json tags of `ScryptParam`) -/
def setScrypt (p : Keypair.ScryptParam) (e : Bytes × JVal) : Res Keypair.ScryptParam :=
  match fieldOf scryptNames e.1 with
  | some 0 => (setInt p.P e.2).map fun v => { p with P := v }
  | some 1 => (setInt p.N e.2).map fun v => { p with N := v }
  | some 2 => (setInt p.R e.2).map fun v => { p with R := v }
  | some 3 => (setInt p.DKLen e.2).map fun v => { p with DKLen := v }
  | _ => .ok p

/-- `json.Unmarshal` into a `ScryptParam`. -/
def unmarshalScryptInto (p : Keypair.ScryptParam) : JObj → Res Keypair.ScryptParam
  | [] => .ok p
  | e :: l => (setScrypt p e).bind fun p => unmarshalScryptInto p l

/-- keypair/encrypt.go:46-51 (json tags of `ScryptParam`) -/
def unmarshalScrypt (o : JObj) : Res Keypair.ScryptParam := unmarshalScryptInto ⟨0, 0, 0, 0⟩ o

/-! ## The connection with Model/Protect.lean -/

/-- The structure that keypair/encrypt.go:73-122 fills: `Hash` is never set, `Param` only for EC keys. -/
def ofProtected (p : Keypair.ProtectedKey) : Prot :=
  { address := p.address, encAlg := ascii p.encAlg, key := some p.key, alg := ascii p.alg, salt := some p.salt,
    hash := [], param := if p.alg = "Ed25519" then none else some [(ascii "curve", ascii p.curve)] }

/-- keypair/encrypt.go:35-43 (json tags of `ProtectedKey`): a Go string as a Lean string, one character per
byte; for comparison with ASCII constants. -/
def latin (b : Bytes) : String := String.ofList (b.map fun x => Char.ofNat x.toNat)

/-- keypair/encrypt.go:35-43 (json tags of `ProtectedKey`): what `DecryptWithCustomScrypt` reads of the
structure: nil slices are empty, and a missing map entry is the empty string. -/
def toProtected (p : Prot) : Keypair.ProtectedKey :=
  { address := p.address, encAlg := latin p.encAlg, key := p.key.getD [], alg := latin p.alg,
    salt := p.salt.getD [],
    curve := latin (((p.param.getD []).find? fun e => e.1 == ascii "curve").map Prod.snd |>.getD []) }

end Verif.ProtectJSON
