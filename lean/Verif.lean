import Verif.Model.Hacl
import Verif.Model.Constants
import Verif.Model.LookupTable
import Verif.Lemmas.Hacl
import Verif.Lemmas.PowMod
import Verif.Lemmas.Primes
import Verif.Props.Params
import Verif.Lemmas.Convert
import Verif.Lemmas.Group
import Verif.Lemmas.LookupTable
import Verif.Lemmas.Hex
import Verif.Props.Group
import Verif.Props.GroupEdge
import Verif.Model.Hash
import Verif.Spec.Hash
import Verif.Lemmas.Hash
import Verif.Props.Hash
import Verif.Model.ElGamal
import Verif.Lemmas.ElGamal
import Verif.Props.ElGamal
import Verif.Model.HashedElGamal
import Verif.Lemmas.HashedElGamal
import Verif.Props.HashedElGamal
import Verif.Props.Precompute
import Verif.Model.Precompute
import Verif.Model.PreObjects
import Verif.Model.ChaumPedersen
import Verif.Spec.ChaumPedersen
import Verif.Lemmas.ChaumPedersen
import Verif.Props.ChaumPedersen
import Verif.Model.Std
import Verif.Model.Enums
import Verif.Model.Manifest
import Verif.Lemmas.Std
import Verif.Spec.Manifest
import Verif.Props.Manifest
import Verif.Props.ManifestHash
import Verif.Model.Ballot
import Verif.Model.Encrypt
import Verif.Props.Ballot
import Verif.Spec.Ballot
import Verif.Props.BallotHash
import Verif.Spec.Encrypt
import Verif.Props.Encrypt
import Verif.Props.EncryptTotal
import Verif.Props.EncryptBallot
import Verif.Spec.Mediator
import Verif.Props.Mediator
import Verif.Props.Compact
import Verif.Props.CompactTotal
import Verif.Model.Collections
import Verif.Spec.Collections
import Verif.Lemmas.Collections
import Verif.Props.Collections
import Verif.Model.Semaphore
import Verif.Props.Semaphore
import Verif.Model.Queue
import Verif.Spec.Queue
import Verif.Spec.Tally
import Verif.Lemmas.Queue
import Verif.Props.Queue
import Verif.Props.Tally
import Verif.Model.Json
import Verif.Spec.Json
import Verif.Lemmas.Json
import Verif.Model.Serialize
import Verif.Spec.Serialize
import Verif.Lemmas.Serialize
import Verif.Props.Serialize
import Verif.Spec.JsonText
import Verif.Lemmas.Double
import Verif.Lemmas.JsonText
import Verif.Props.JsonText
import Verif.Model.Binary
import Verif.Spec.Binary
import Verif.Lemmas.Binary
import Verif.Lemmas.MsgPack
import Verif.Lemmas.Bson
import Verif.Lemmas.BinaryWrite
import Verif.Props.Binary
import Verif.Props.SerializeBallot
import Verif.Props.Submit
import Verif.Spec.Record
import Verif.Props.Record
import Verif.Spec.SerializeManifest
import Verif.Props.SerializeManifest
import Verif.Props.Checks
import Verif.Spec.Limbs
import Verif.Model.Limbs
import Verif.Model.LimbsExp
import Verif.Lemmas.Limbs
import Verif.Lemmas.LimbsKaratsuba
import Verif.Lemmas.LimbsMont
import Verif.Lemmas.LimbsExp
import Verif.Lemmas.LimbsCheck
import Verif.Props.Limbs
import Verif.Model.LimbsGroup
import Verif.Lemmas.LimbsGroup
import Verif.Props.LimbsGroup
import Verif.Spec.Sha
import Verif.Spec.ShaCrypto
import Verif.Model.Sha
import Verif.Model.Drbg
import Verif.Lemmas.Sha
import Verif.Lemmas.ShaStream
import Verif.Lemmas.Drbg
import Verif.Props.Sha
import Verif.Props.Drbg
import Verif.Props.ZeroKnowledge
import Verif.Props.VoteLimit
import Verif.Props.ProofKey
import Verif.Model.Pool
import Verif.Lemmas.Pool
import Verif.Props.Pool
import Verif.Model.LogRace
import Verif.Model.LutRace
import Verif.Props.LogRace
import Verif.Props.LutRace
import Verif.Spec.Calendar
import Verif.Model.Date
import Verif.Lemmas.Date
import Verif.Props.Date
import Verif.Model.CApi
import Verif.Model.CApiTable
import Verif.Model.CApiSigs
import Verif.Model.CText
import Verif.Spec.CApi
import Verif.Lemmas.CApi
import Verif.Lemmas.CApiStep
import Verif.Lemmas.CApiRun
import Verif.Props.CApi
import Verif.Props.CText
import Verif.Model.CsImports
import Verif.Model.CsHandle
import Verif.Model.CsConstants
import Verif.Spec.Cs
import Verif.Lemmas.Cs
import Verif.Props.Cs
import Verif.Model.CsPrecompute
import Verif.Spec.CsPrecompute
import Verif.Lemmas.CsPrecompute
import Verif.Props.CsPrecompute
import Verif.Model.UInt128
import Verif.Spec.UInt128
import Verif.Lemmas.UInt128
import Verif.Props.UInt128
import Verif.Spec.Precompute
import Verif.Model.PreRace
import Verif.Spec.PreRace
import Verif.Lemmas.PreRace
import Verif.Props.PreRace
import Verif.Spec.Stored
import Verif.Props.Stored
import Verif.Props.TallyExact
import Verif.Model.Leak
import Verif.Lemmas.Leak
import Verif.Lemmas.LeakSame
import Verif.Lemmas.LeakExp
import Verif.Lemmas.LeakPow
import Verif.Lemmas.LeakDecrypt
import Verif.Props.Leak
import Verif.Model.Hacl32
import Verif.Model.Limbs32
import Verif.Model.Limbs32Exp
import Verif.Spec.Limbs32
import Verif.Lemmas.Limbs32
import Verif.Lemmas.Limbs32Karatsuba
import Verif.Lemmas.Limbs32Mont
import Verif.Lemmas.Hacl32
import Verif.Lemmas.Limbs32Val
import Verif.Lemmas.Limbs32Exp
import Verif.Lemmas.Limbs32Check
import Verif.Model.Windows
import Verif.Lemmas.Windows
import Verif.Props.Windows
import Verif.Model.Wipe
import Verif.Spec.Wipe
import Verif.Lemmas.Wipe
import Verif.Lemmas.EncryptLog
import Verif.Props.Wipe
import Verif.Model.WipeRandom
import Verif.Props.WipeRandom
import Verif.Model.ContextMake
import Verif.Model.EncryptConfig
import Verif.Model.ManifestDate
import Verif.Model.CsCollect
import Verif.Model.ContestObj
import Verif.Model.EncryptLog
import Verif.Model.LimbsMem
import Verif.Spec.ContextMake
import Verif.Props.ContextMake
import Verif.Props.Config
import Verif.Props.ManifestDate
import Verif.Props.CsCollect
import Verif.Props.ContestObj
import Verif.Props.EncryptLog
import Verif.Props.LimbsMem
import Verif.Model.KaratsubaMem
import Verif.Lemmas.KaratsubaMem
import Verif.Lemmas.ExpMem
import Verif.Props.KaratsubaMem
import Verif.Model.ModMem
import Verif.Lemmas.ModMem
import Verif.Props.ModMem
import Verif.Model.Copies
import Verif.Props.Copies
import Verif.Model.CManifest
import Verif.Props.CManifest
import Verif.Props.Secrecy
import Verif.Props.NonceUse
import Verif.Spec.Freq
import Verif.Lemmas.Derive
import Verif.Props.NonceBuffer
import Verif.Spec.Derived
import Verif.Props.Derived
import Verif.Lemmas.Freq
import Verif.Lemmas.SimFamily
import Verif.Props.ElectionSecrecy
import Verif.Props.ElectionProofs
import Verif.Props.ElectionStock
import Verif.Props.WriteIns
import Verif.Props.WriteInsOracle
import Verif.Props.ElectionRecords
import Verif.Props.BallotSecrecy
import Verif.Props.BallotStock
import Verif.Props.PreObjects
import Verif.Spec.Oracle
import Verif.Lemmas.Oracle
import Verif.Props.Forgery
import Verif.Props.Replay
import Verif.Props.TallyForgery
import Verif.Lemmas.Simulation
import Verif.Props.ProofSecrecy
import Verif.Spec.Simulation
import Verif.Model.Bignum
import Verif.Spec.Bignum
import Verif.Lemmas.Bignum
import Verif.Props.Bignum
import Verif.Model.CGroup
import Verif.Lemmas.CGroup
import Verif.Props.CGroup
import Verif.Model.CHash
import Verif.Props.CHash
import Verif.Model.CEncrypt
import Verif.Props.CEncrypt
import Verif.Model.CProof
import Verif.Props.CProof
import Verif.Model.CCode
import Verif.Model.CContext
import Verif.Spec.CCode
import Verif.Spec.CContext
import Verif.Props.CCode
import Verif.Props.CContext
import Verif.Model.CJson
import Verif.Spec.CJson
import Verif.Props.CJson
import Verif.Model.CSubmit
import Verif.Props.CSubmit
import Verif.Model.CWalk
import Verif.Props.CWalk
import Verif.Model.CBytes
import Verif.Props.CBytes
