import Verif.Model.SM4
/-!
# Model of package sm4 with the table accesses it makes

The same functions as in `Model/SM4.lean`, each with a second result: the indices at which the table `sm4_sbox` is
read, in the order of the code. `sm4_tao` has the only accesses to memory at places that depend on data; all other
indices in the package are constants or loop counters, and the only branches are on the length of the key, on the
direction and on the loop counters.
-/
namespace Verif.SM4

/-- sm4/block.go:99: one read of `sm4_sbox`, with its index. -/
def lookT (b : Byte) : Word × List Byte := (sboxAt b, [b])

/-- sm4/block.go:98-100 `sm4_tao`: four reads. Go leaves open in which order the operands of `|` that are no calls are
evaluated; the order here is the one in the text. -/
def taoT (a : Word) : Word × List Byte :=
  let p := lookT (a.setWidth 8)
  let q := lookT ((a >>> 8).setWidth 8)
  let u := lookT ((a >>> 16).setWidth 8)
  let v := lookT ((a >>> 24).setWidth 8)
  (p.1 ||| q.1 <<< 8 ||| u.1 <<< 16 ||| v.1 <<< 24, p.2 ++ q.2 ++ u.2 ++ v.2)

/-- sm4/block.go:106-108 `sm4_t`. -/
def tT (x : Word) : Word × List Byte := (l (taoT x).1, (taoT x).2)

/-- sm4/block.go:110-112 `sm4_f`. -/
def fT (x0 x1 x2 x3 rk : Word) : Word × List Byte :=
  let p := tT (x1 ^^^ x2 ^^^ x3 ^^^ rk)
  (x0 ^^^ p.1, p.2)

/-- sm4/block.go:125-127 `sm4_kt`. -/
def ktT (x : Word) : Word × List Byte := (kl (taoT x).1, (taoT x).2)

/-- sm4/block.go:43-47: one key-schedule step. -/
def keyStepT (k : Quad) (c : Word) : (Quad × Word) × List Byte :=
  let p := ktT (k.b ^^^ k.c ^^^ k.d ^^^ c)
  let rk := k.a ^^^ p.1
  ((⟨k.b, k.c, k.d, rk⟩, rk), p.2)

/-- sm4/block.go:42-48: the loop over the constants `sm4_ck[i]`. -/
def keyLoopT : Quad → List Word → List Word × List Byte
  | _, [] => ([], [])
  | k, c :: cs =>
    let s := keyStepT k c
    let o := keyLoopT s.1.1 cs
    (s.1.2 :: o.1, s.2 ++ o.2)

/-- sm4/block.go:29-49 `generateSubkeys`. -/
def generateSubkeysT (key : Bytes) : List Word × List Byte :=
  let q := loadQuad key
  keyLoopT ⟨q.a ^^^ fk.getD 0 0, q.b ^^^ fk.getD 1 0, q.c ^^^ fk.getD 2 0, q.d ^^^ fk.getD 3 0⟩ ck

/-- sm4/cipher.go:48-56 `NewCipher`. -/
def newCipherT (key : Bytes) : Except Nat Cipher × List Byte :=
  if key.length ≠ 16 then (.error key.length, [])
  else
    let o := generateSubkeysT key
    (.ok ⟨o.1⟩, o.2)

/-- sm4/block.go:68-72, 76-80: one round with a round key. -/
def roundStepT (m : Quad) (rk : Word) : Quad × List Byte :=
  let p := fT m.a m.b m.c m.d rk
  (⟨m.b, m.c, m.d, p.1⟩, p.2)

/-- sm4/block.go:67-81: the rounds, with the round keys in the order of their use. -/
def roundLoopT : Quad → List Word → Quad × List Byte
  | m, [] => (m, [])
  | m, rk :: rks =>
    let s := roundStepT m rk
    let o := roundLoopT s.1 rks
    (o.1, s.2 ++ o.2)

/-- sm4/block.go:58-92: the 16 output bytes of `cryptBlock` for the first 16 bytes of `src`. -/
def cryptBytesT (subkeys : List Word) (src : Bytes) (decrypt : Bool) : Bytes × List Byte :=
  let o := roundLoopT (loadQuad src) (if decrypt then subkeys.reverse else subkeys)
  (storeQuad (r o.1), o.2)

/-- sm4/block.go:58-92 `cryptBlock` on heap slices (as `cryptBlock` in `Model/SM4.lean`; the sixteen bytes of a short
`dst` are missed only after the rounds). -/
def cryptBlockT (subkeys : List Word) (h : Heap) (dst src : Slice) (decrypt : Bool) : Res Heap × List Byte :=
  if src.len < 16 then (.panic "index out of range", [])
  else
    let o := cryptBytesT subkeys (src.read h) decrypt
    (if dst.len < 16 then .panic "index out of range" else .ok (h.store dst.arr dst.off o.1), o.2)

/-- sm4/cipher.go:60 `Encrypt`. -/
def Cipher.encryptT (c : Cipher) (h : Heap) (dst src : Slice) : Res Heap × List Byte :=
  cryptBlockT c.subkeys h dst src false

/-- sm4/cipher.go:62 `Decrypt`. -/
def Cipher.decryptT (c : Cipher) (h : Heap) (dst src : Slice) : Res Heap × List Byte :=
  cryptBlockT c.subkeys h dst src true

end Verif.SM4
