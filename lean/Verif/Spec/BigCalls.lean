import Verif.Model.BigAmd64
import Verif.Model.BigKeys
/-!
# Calls on shared keys

What it means that a call is right when keys, signatures and curves are made of number objects: it returns what the
model says for the values these objects had, in objects of its own.
-/
namespace Verif.Big

/-- The key a pointer stands for in a memory. -/
def pubVal (m : Mem) (o : PubObj) : ECPub := ⟨o.curve.c, (m o.X).toNat, (m o.Y).toNat⟩

/-- The private key a pointer stands for in a memory. -/
def privVal (m : Mem) (o : PrivObj) : ECPriv := ⟨(m o.D).toNat, pubVal m o.pub⟩

/-- An object that goroutine `t`, which has made `n` objects so far, can pass to a call: one that was there before the
goroutines started, or one that it has made itself. -/
def Before (t n : Nat) (r : Ref) : Prop := r.owner = 0 ∨ r.owner = t ∧ r.idx < n

/-- An object that was there before the call and holds a number that is not negative. -/
def Given (t n : Nat) (m : Mem) (r : Ref) : Prop := Before t n r ∧ 0 ≤ m r

/-- The objects of a curve were there before the call and hold its parameters. -/
def CurveObj.Given (t n : Nat) (m : Mem) (o : CurveObj) : Prop :=
  (Before t n o.P ∧ Before t n o.N ∧ Before t n o.B ∧ Before t n o.Gx ∧ Before t n o.Gy) ∧
  (m o.P = o.c.P ∧ m o.N = o.c.N ∧ m o.B = o.c.B ∧ m o.Gx = o.c.Gx ∧ m o.Gy = o.c.Gy) ∧ 0 < o.c.P ∧ 0 < o.c.N

/-- A public key that was there before the call. -/
def PubObj.Given (t n : Nat) (m : Mem) (o : PubObj) : Prop :=
  o.curve.Given t n m ∧ Big.Given t n m o.X ∧ Big.Given t n m o.Y

/-- A private key that was there before the call. -/
def PrivObj.Given (t n : Nat) (m : Mem) (o : PrivObj) : Prop := o.pub.Given t n m ∧ Big.Given t n m o.D

/-- A call of a function that computes with numbers, with its arguments. -/
inductive Call where
  /-- `ec.DecodePublicKey(data, curve)` -/
  | decode (k1name : String) (data : Bytes) (o : CurveObj) (draws : List Nat)
  /-- `sm2.Sign(rand, priv, id, msg, hasher)` -/
  | sign (E : SM2.Ext) (H : Bytes → Bytes) (one : Ref) (fuel : Nat) (rand : Bytes) (priv : PrivObj) (id msg : Bytes)
  /-- `sm2.Verify(pub, id, msg, hasher, r, s)` -/
  | verify (E : SM2.Ext) (H : Bytes → Bytes) (pub : PubObj) (id msg : Bytes) (r s : Ref)
  /-- `sm2.Encrypt(pub, data)` -/
  | encrypt (E : SM2.Ext) (one : Ref) (fuel : Nat) (rand : Bytes) (pub : PubObj) (data : Bytes)
  /-- `sm2.Decrypt(priv, data)` -/
  | decrypt (E : SM2.Ext) (priv : PrivObj) (data spare : Bytes)
  /-- `Evaluate(pri, h, m)` of package vrf -/
  | evaluate (E : VRF.Ext) (a : Signature.HashAlg) (priv : PrivObj) (one : Ref) (msg : Bytes) (nonce : Res Bytes)
      (draws : Nat → List Nat) (fuel : Nat)
  /-- `ProofToHash(pk, h, m, proof)` of package vrf -/
  | proofToHash (E : VRF.Ext) (a : Signature.HashAlg) (pk : PubObj) (one : Ref) (msg proof : Bytes)
      (draws : Nat → List Nat) (fuel : Nat)
  /-- `ScalarMult(x, y, scalar)` of the SM2 curve on amd64 -/
  | mult (o : CurveObj) (x y : Ref) (scalar : Bytes)
  /-- `ScalarBaseMult(scalar)` of the SM2 curve on amd64 -/
  | baseMult (o : CurveObj) (scalar : Bytes)
  /-- `CombinedMult(x, y, baseScalar, scalar)` of the SM2 curve on amd64 -/
  | combined (o : CurveObj) (x y : Ref) (baseScalar scalar : Bytes)
  /-- `Inverse(k)` of the SM2 curve on amd64 -/
  | inverse (o : CurveObj) (k : Ref)
  /-- `ec.EncodePublicKey(key, compressed)` -/
  | encode (key : PubObj) (compressed : Bool)
  /-- `keypair.SerializePublicKey(key)` for an EC key -/
  | serializePub (E : Keypair.Ext) (alg : Keypair.Alg) (pub : PubObj)
  /-- `keypair.SerializePrivateKey(pri)` for an EC key -/
  | serializePriv (E : Keypair.Ext) (alg : Keypair.Alg) (priv : PrivObj)
  /-- `keypair.ComparePublicKey(k0, k1)` for two EC keys -/
  | compare (a0 a1 : Keypair.Alg) (k0 k1 : PubObj)
  /-- `ec.ConstructPrivateKey(data, curve)` -/
  | construct (E : Keypair.Ext) (data : Bytes) (o : CurveObj)
  /-- `ec.GenerateECKeyPair(curve, rand, alg)` -/
  | generate (E : Keypair.Ext) (o : CurveObj) (alg : Keypair.Alg) (reads : List Bytes)
  /-- `signature.Serialize(sig)` for an ECDSA signature (no `id`) or an SM2 signature -/
  | serializeSig (scheme : Signature.Scheme) (id : Option Bytes) (v : DsaObj)

/-- The type of the result. -/
def Call.Ret : Call → Type
  | .decode .. => Option (Res PubObj)
  | .sign .. => Option (Res (Ref × Ref))
  | .verify .. => Bool
  | .encrypt .. => Option (Res Bytes)
  | .decrypt .. => Res SM2.DecOut
  | .evaluate .. => Option (Res Bytes)
  | .proofToHash .. => Option (Res Bytes)
  | .mult .. => Ref × Ref
  | .baseMult .. => Ref × Ref
  | .combined .. => Ref × Ref
  | .inverse .. => Ref
  | .encode .. => Res Bytes
  | .serializePub .. => Res Bytes
  | .serializePriv .. => Res Bytes
  | .compare .. => Bool
  | .construct .. => PrivObj
  | .generate .. => Option (PrivObj × PubObj)
  | .serializeSig .. => Res Bytes

/-- The program that is run. -/
def Call.prog : (c : Call) → Prog c.Ret
  | .decode k1name data o draws => decodePublicKey k1name data (some o) draws
  | .sign E H one fuel rand priv id msg => Big.sign E H one fuel rand priv id msg
  | .verify E H pub id msg r s => Big.verify E H pub id msg r s
  | .encrypt E one fuel rand pub data => Big.encrypt E one fuel rand pub data
  | .decrypt E priv data spare => Big.decrypt E priv data spare
  | .evaluate E a priv one msg nonce draws fuel => Big.evaluate E a priv one msg nonce draws fuel
  | .proofToHash E a pk one msg proof draws fuel => Big.proofToHash E a pk one msg proof draws fuel
  | .mult o x y scalar => Big.scalarMult o x y scalar
  | .baseMult o scalar => Big.scalarBaseMult o scalar
  | .combined o x y baseScalar scalar => Big.combinedMult o x y baseScalar scalar
  | .inverse o k => Big.inverse o k
  | .encode key compressed => Big.encodePublicKey key compressed
  | .serializePub E alg pub => Big.serializePublicKey E alg pub
  | .serializePriv E alg priv => Big.serializePrivateKey E alg priv
  | .compare a0 a1 k0 k1 => Big.comparePublicKey a0 a1 k0 k1
  | .construct E data o => Big.constructPrivateKey E data o
  | .generate E o _ reads => Big.generateECKeyPair E o reads
  | .serializeSig scheme id v => Big.serializeSig scheme id v

/-- The objects passed to the call were there before it; the variable `one` holds one. -/
def Call.Given (t n : Nat) (m : Mem) : Call → Prop
  | .decode _ _ o _ => o.Given t n m
  | .sign _ _ one _ _ priv _ _ => priv.Given t n m ∧ one.owner = 0 ∧ m one = 1
  | .verify _ _ pub _ _ r s => pub.Given t n m ∧ Before t n r ∧ Before t n s
  | .encrypt _ one _ _ pub _ => pub.Given t n m ∧ one.owner = 0 ∧ m one = 1
  | .decrypt _ priv _ _ => priv.Given t n m
  | .evaluate _ _ priv one _ _ _ _ => priv.Given t n m ∧ one.owner = 0 ∧ m one = 1
  | .proofToHash _ _ pk one _ _ _ _ => pk.Given t n m ∧ one.owner = 0 ∧ m one = 1
  | .mult o x y _ => (o.Given t n m ∧ o.c = Curves.sm2) ∧ Big.Given t n m x ∧ Big.Given t n m y
  | .baseMult o _ => o.Given t n m ∧ o.c = Curves.sm2
  | .combined o x y _ _ => (o.Given t n m ∧ o.c = Curves.sm2) ∧ Big.Given t n m x ∧ Big.Given t n m y
  | .inverse o k => (o.Given t n m ∧ o.c = Curves.sm2) ∧ Before t n k
  | .encode key _ => key.Given t n m
  | .serializePub _ _ pub => pub.Given t n m
  | .serializePriv _ _ priv => priv.Given t n m
  | .compare _ _ k0 k1 => k0.Given t n m ∧ k1.Given t n m
  | .construct _ _ o => o.Given t n m
  | .generate _ o _ _ => o.Given t n m
  | .serializeSig _ _ v => Before t n v.R ∧ Before t n v.S

/-- A number object that goroutine `t` made while its number of objects grew from `n` to `n'`. -/
def Made (t n n' : Nat) (r : Ref) : Prop := r.owner = t ∧ n ≤ r.idx ∧ r.idx < n'

/-- A new number object of goroutine `t` that is not negative. -/
def New (t n n' : Nat) (m : Mem) (r : Ref) : Prop := Made t n n' r ∧ 0 ≤ m r

/-- Two different new numbers with the values `v`. -/
def NewPair (t n n' : Nat) (m : Mem) (q : Ref × Ref) (v : Nat × Nat) : Prop :=
  Made t n n' q.1 ∧ Made t n n' q.2 ∧ q.1 ≠ q.2 ∧ m q.1 = v.1 ∧ m q.2 = v.2

/-- A private key made of different new numbers. -/
def NewPriv (t n n' : Nat) (m : Mem) (o : CurveObj) (q : PrivObj) : Prop :=
  q.pub.curve = o ∧ New t n n' m q.D ∧ New t n n' m q.pub.X ∧ New t n n' m q.pub.Y ∧ q.D ≠ q.pub.X ∧ q.D ≠ q.pub.Y ∧ q.pub.X ≠ q.pub.Y

/-- The signature in a memory. -/
def sigVal (m : Mem) (scheme : Signature.Scheme) (id : Option Bytes) (v : DsaObj) : Signature.Sig Signature.Buf :=
  ⟨scheme, match id with
    | none => .dsa (m v.R) (m v.S) v.curve
    | some id => .sm2 (m v.R) (m v.S) v.curve id⟩

/-- The result is right: with `m₀` the memory before the call and `m` the memory when the result is looked at, it is
what the model says for the values in `m₀`; the objects in the result are different new objects of the goroutine `t`,
which had made `n` objects before the call and has made `n'` after it. -/
def Call.Right (t n n' : Nat) (m₀ m : Mem) : (c : Call) → c.Ret → Prop
  | .decode k1name data o draws, (ret : Option (Res PubObj)) =>
    (ret.map fun r => r.map (pubVal m)) = EC.decodePublicKey k1name data (some o.c) draws ∧
    ∀ q, ret = some (.ok q) → q.curve = o ∧ New t n n' m q.X ∧ New t n n' m q.Y ∧ q.X ≠ q.Y
  | .sign E H _ fuel rand priv id msg, (ret : Option (Res (Ref × Ref))) =>
    (ret.map fun r => r.map fun q => ((m q.1).toNat, (m q.2).toNat)) =
      SM2.sign E H fuel rand (privVal m₀ priv) id msg ∧
    ∀ q, ret = some (.ok q) → New t n n' m q.1 ∧ New t n n' m q.2 ∧ q.1 ≠ q.2
  | .verify E H pub id msg r s, (ret : Bool) => ret = SM2.verify E H (pubVal m₀ pub) id msg (m₀ r) (m₀ s)
  | .encrypt E _ fuel rand pub data, (ret : Option (Res Bytes)) => ret = SM2.encrypt E fuel rand (pubVal m₀ pub) data
  | .decrypt E priv data spare, (ret : Res SM2.DecOut) => ret = SM2.decrypt E (privVal m₀ priv) data spare
  | .evaluate E a priv _ msg nonce draws fuel, (ret : Option (Res Bytes)) =>
    ret = VRF.evaluate E a (privVal m₀ priv) msg nonce draws fuel
  | .proofToHash E a pk _ msg proof draws fuel, (ret : Option (Res Bytes)) =>
    ret = VRF.proofToHash E a (pubVal m₀ pk) msg proof draws fuel
  | .mult _ x y scalar, (ret : Ref × Ref) => NewPair t n n' m ret (X64.P256.scalarMult (m₀ x).toNat (m₀ y).toNat scalar)
  | .baseMult _ scalar, (ret : Ref × Ref) => NewPair t n n' m ret (X64.P256.scalarBaseMult scalar)
  | .combined _ x y baseScalar scalar, (ret : Ref × Ref) =>
    NewPair t n n' m ret (X64.P256.combinedMult (m₀ x).toNat (m₀ y).toNat baseScalar scalar)
  | .inverse _ k, (ret : Ref) => Made t n n' ret ∧ m ret = (X64.P256.inverse (m₀ k) : Nat)
  | .encode key compressed, (ret : Res Bytes) => ret = EC.encodePublicKey (some (pubVal m₀ key)) compressed
  | .serializePub E alg pub, (ret : Res Bytes) => ret = Keypair.serializePublicKey E (.ec alg (pubVal m₀ pub))
  | .serializePriv E alg priv, (ret : Res Bytes) => ret = Keypair.serializePrivateKey E (.ec alg (privVal m₀ priv))
  | .compare a0 a1 k0 k1, (ret : Bool) =>
    ret = Keypair.comparePublicKey (.ec a0 (pubVal m₀ k0)) (.ec a1 (pubVal m₀ k1))
  | .construct E data o, (ret : PrivObj) =>
    privVal m ret = Keypair.constructPrivateKey E data o.c ∧ NewPriv t n n' m o ret
  | .generate E o alg reads, (ret : Option (PrivObj × PubObj)) =>
    (ret.map fun q => (Keypair.PrivateKey.ec alg (privVal m q.1), Keypair.PublicKey.ec alg (pubVal m q.2))) =
      Keypair.generateECKeyPair E o.c alg reads ∧
    ∀ q, ret = some q → NewPriv t n n' m o q.1 ∧ q.2 = q.1.pub
  | .serializeSig scheme id v, (ret : Res Bytes) => ret = Signature.serialize (some (sigVal m₀ scheme id v))

/-- Several goroutines, each about to make a call. -/
def start {n : Nat} (calls : Fin n → Call) (m : Mem) : Conf fun i => (calls i).Ret where
  prog i := (calls i).prog
  count _ := 0
  mem := m

/-- The goroutine is about to read the object. -/
def Prog.Reads {α : Type} (r : Ref) : Prog α → Prop
  | .get r' _ => r' = r
  | _ => False

/-- The goroutine `t` is about to write the object. -/
def Prog.Writes {α : Type} (t c : Nat) (r : Ref) : Prog α → Prop
  | .put r' _ _ => r' = r
  | .new _ _ => r = ⟨t, c⟩
  | _ => False

/-! ## Histories of calls -/

/-- What one goroutine does: it makes calls and looks at numbers, changes numbers, and what it does next, or the value
it ends with, may depend on all results so far. -/
inductive Client (α : Type) where
  /-- the end -/
  | done (a : α)
  /-- a call -/
  | call (c : Call) (k : c.Ret → Client α)
  /-- reading a number -/
  | look (r : Ref) (k : Int → Client α)
  /-- `r.SetInt64(v)` or any other method that changes a number -/
  | set (r : Ref) (v : Int) (k : Client α)

/-- The program that is run. -/
def Client.prog {α : Type} : Client α → Prog α
  | .done a => .ret a
  | .call c k => c.prog.bind fun r => (k r).prog
  | .look r k => .get r fun v => (k v).prog
  | .set r v k => .put r v k.prog

/-- The objects that were there before have the same values. -/
def Kept (t n : Nat) (m m' : Mem) : Prop := ∀ r, Before t n r → m' r = m r

/-- What the history says without the programs: each call gives a right result for the values its arguments have at that
time and keeps all objects that are there. The history of goroutine `t` starts in the memory `m` with `n` objects made,
and ends with the value `a` in the memory `m'`. -/
def Client.Gives {α : Type} (t : Nat) : Client α → Mem → Nat → α → Mem → Prop
  | .done a, m, _, b, m' => b = a ∧ m' = m
  | .call c k, m, n, b, m' => ∃ r m₁ n₁, n ≤ n₁ ∧ c.Right t n n₁ m m₁ r ∧ Kept t n m m₁ ∧ (k r).Gives t m₁ n₁ b m'
  | .look r k, m, n, b, m' => (k (m r)).Gives t m n b m'
  | .set r v k, m, n, b, m' => k.Gives t (m.put r v) n b m'

/-- The goroutine passes to calls only objects that are there and changes only objects that it has made. -/
def Client.Proper {α : Type} (t : Nat) : Client α → Mem → Nat → Prop
  | .done _, _, _ => True
  | .call c k, m, n => c.Given t n m ∧
    ∀ r m₁ n₁, n ≤ n₁ → c.Right t n n₁ m m₁ r → Kept t n m m₁ → (k r).Proper t m₁ n₁
  | .look r k, m, n => Before t n r ∧ (k (m r)).Proper t m n
  | .set r v k, m, n => (r.owner = t ∧ r.idx < n) ∧ k.Proper t (m.put r v) n

/-- Several goroutines at their start. -/
def startClients {n : Nat} {α : Fin n → Type} (clients : (i : Fin n) → Client (α i)) (m : Mem) : Conf α where
  prog i := (clients i).prog
  count _ := 0
  mem := m

end Verif.Big
