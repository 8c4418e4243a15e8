import Verif.Base.Curve
/-!
# The supported curves

Constants of crypto/elliptic (P-224 ... P-521), btcec (secp256k1) and sm2/curves.go:47-60. The first five are
external to /repo; their values are the published ones (FIPS 186-4, SEC 2).
-/
namespace Verif.Curves

/-- crypto/elliptic P-224. -/
def p224 : Curve :=
  { name := "P-224"
    P := 0xffffffffffffffffffffffffffffffff000000000000000000000001
    N := 0xffffffffffffffffffffffffffff16a2e0b8f03e13dd29455c5c2a3d
    B := 0xb4050a850c04b3abf54132565044b0b7d7bfd8ba270b39432355ffb4
    Gx := 0xb70e0cbd6bb4bf7f321390b94a03c1d356c21122343280d6115c1d21
    Gy := 0xbd376388b5f723fb4c22dfe6cd4375a05a07476444d5819985007e34
    bitSize := 224 }

/-- crypto/elliptic P-256. -/
def p256 : Curve :=
  { name := "P-256"
    P := 0xffffffff00000001000000000000000000000000ffffffffffffffffffffffff
    N := 0xffffffff00000000ffffffffffffffffbce6faada7179e84f3b9cac2fc632551
    B := 0x5ac635d8aa3a93e7b3ebbd55769886bc651d06b0cc53b0f63bce3c3e27d2604b
    Gx := 0x6b17d1f2e12c4247f8bce6e563a440f277037d812deb33a0f4a13945d898c296
    Gy := 0x4fe342e2fe1a7f9b8ee7eb4a7c0f9e162bce33576b315ececbb6406837bf51f5
    bitSize := 256 }

/-- crypto/elliptic P-384. -/
def p384 : Curve :=
  { name := "P-384"
    P := 0xfffffffffffffffffffffffffffffffffffffffffffffffffffffffffffffffeffffffff0000000000000000ffffffff
    N := 0xffffffffffffffffffffffffffffffffffffffffffffffffc7634d81f4372ddf581a0db248b0a77aecec196accc52973
    B := 0xb3312fa7e23ee7e4988e056be3f82d19181d9c6efe8141120314088f5013875ac656398d8a2ed19d2a85c8edd3ec2aef
    Gx := 0xaa87ca22be8b05378eb1c71ef320ad746e1d3b628ba79b9859f741e082542a385502f25dbf55296c3a545e3872760ab7
    Gy := 0x3617de4a96262c6f5d9e98bf9292dc29f8f41dbd289a147ce9da3113b5f0b8c00a60b1ce1d7e819d7a431d7c90ea0e5f
    bitSize := 384 }

/-- crypto/elliptic P-521. -/
def p521 : Curve :=
  { name := "P-521"
    P := 0x1ffffffffffffffffffffffffffffffffffffffffffffffffffffffffffffffffffffffffffffffffffffffffffffffffffffffffffffffffffffffffffffffffff
    N := 0x1fffffffffffffffffffffffffffffffffffffffffffffffffffffffffffffffffa51868783bf2f966b7fcc0148f709a5d03bb5c9b8899c47aebb6fb71e91386409
    B := 0x51953eb9618e1c9a1f929a21a0b68540eea2da725b99b315f3b8b489918ef109e156193951ec7e937b1652c0bd3bb1bf073573df883d2c34f1ef451fd46b503f00
    Gx := 0xc6858e06b70404e9cd9e3ecb662395b4429c648139053fb521f828af606b4d3dbaa14b5e77efe75928fe1dc127a2ffa8de3348b3c1856a429bf97e7e31c2e5bd66
    Gy := 0x11839296a789a3bc0045c8a5fb42c7d1bd998f54449579b446817afbd17273e662c97ee72995ef42640c550b9013fad0761353c7086a272c24088be94769fd16650
    bitSize := 521 }

/-- secp256k1 of btcec. Its `Name` depends on the btcec version ("" or "secp256k1"), so it is a parameter. -/
def secp256k1 (k1name : String) : Curve :=
  { name := k1name
    P := 0xfffffffffffffffffffffffffffffffffffffffffffffffffffffffefffffc2f
    N := 0xfffffffffffffffffffffffffffffffebaaedce6af48a03bbfd25e8cd0364141
    B := 0x7
    Gx := 0x79be667ef9dcbbac55a06295ce870b07029bfcdb2dce28d959f2815b16f81798
    Gy := 0x483ada7726a3c4655da4fbfc0e1108a8fd17b448a68554199c47d08ffb10d4b8
    bitSize := 256 }

/-- sm2/curves.go:47-60 `initP256`: the SM2 curve. -/
def sm2 : Curve :=
  { name := "sm2p256v1"
    P := 0xfffffffeffffffffffffffffffffffffffffffff00000000ffffffffffffffff
    N := 0xfffffffeffffffffffffffffffffffff7203df6b21c6052b53bbf40939d54123
    B := 0x28e9fa9e9d9f5e344d5a9e4bcf6509a7f39789f515ab8f92ddbcbd414d940e93
    Gx := 0x32c4ae2c1f1981195f9904466a39c9948fe30bbff2660be1715a4589334c74c7
    Gy := 0xbc3736a2f4f6779c59bdcee36b692153d0a9877cc62a474002df32e52139f0a0
    bitSize := 256 }

/-- The curves the library supports (keypair/ecurves.go:50-68). -/
def all (k1name : String) : List Curve := [p224, p256, p384, p521, secp256k1 k1name, sm2]

end Verif.Curves
