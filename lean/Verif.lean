import Verif.Base.Bytes
import Verif.Base.Slice
import Verif.Base.BlockCipher
import Verif.Props.SM3
import Verif.Props.SM4
import Verif.Props.SM4Sched
import Verif.Props.AES
import Verif.Props.EC
import Verif.Props.Curve
import Verif.Props.Keypair
import Verif.Props.Generic
import Verif.Props.PublicOf
import Verif.Props.KeyGen
import Verif.Props.KeyShape
import Verif.Props.Wif
import Verif.Props.Protect
import Verif.Props.SM2Sign
import Verif.Props.SM2Enc
import Verif.Props.Signature
import Verif.Props.SigOutcome
import Verif.Props.VRF
import Verif.Props.VRFHasher
import Verif.Props.P256Field
import Verif.Props.P256Curve
import Verif.Props.P256Leak
import Verif.Props.P256Wrong
import Verif.Props.P256Prog
import Verif.Props.P256LeakProg
import Verif.Props.SM2Nonce
import Verif.Props.Malleable
import Verif.Props.Sharing
import Verif.Props.SM2Hasher
import Verif.Props.SM2Heap
import Verif.Props.SM4Trace
import Verif.Props.AESOracle
import Verif.Props.Repeat
import Verif.Props.Signer
import Verif.Props.Compact
import Verif.Props.BadKeys
import Verif.Props.BadKeysAmd64
import Verif.Props.Crash
import Verif.Props.Random
import Verif.Props.Workflow
import Verif.Props.RandFail
import Verif.Props.ProtectJSON
import Verif.Props.SortProg
import Verif.Props.SM2Accept
import Verif.Props.VRFUnique
import Verif.Props.VRFProof
import Verif.Props.Encodings
import Verif.Props.OrdSqr
import Verif.Props.SM3Heap
import Verif.Props.SigNil
import Verif.Props.Amd64Enc
import Verif.Props.Amd64Keys
import Verif.Props.Amd64VRF
import Verif.Props.Big
import Verif.Props.SM3Coll
import Verif.Props.SM2Bind
import Verif.Props.Draws
import Verif.Props.AESAuth
import Verif.Props.BigHistory
import Verif.Props.Copies
import Verif.Props.WifHeap
import Verif.Props.SM2Print
import Verif.Props.Parse
import Verif.Props.Amd64Life
import Verif.Props.VRFInjective
import Verif.Props.GoECDSA
import Verif.Props.ECDSANonce
import Verif.Props.GoECDSAAmd64
import Verif.Props.GCM
import Verif.Props.GoAES
import Verif.Props.AESLeak
import Verif.Props.GoScrypt
import Verif.Props.WifText
import Verif.Props.GoCompact
import Verif.Props.GoCompactSign
import Verif.Props.RFC6979
import Verif.Props.GoEth
