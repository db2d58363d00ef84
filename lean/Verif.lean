import Verif.Basic
import Verif.Model.Time
import Verif.Proof.Time
import Verif.Props.Time
import Verif.Model.Ffi
import Verif.Spec.Laws
import Verif.Spec.Key
import Verif.Proof.Prng
import Verif.Proof.SubKey
import Verif.Toy
import Verif.Proof.Group
import Verif.Proof.SubKeyOps
import Verif.Proof.Domain
import Verif.Props.SubKey
import Verif.Props.Prng
import Verif.Proof.SecretKey
import Verif.Proof.Update
import Verif.Props.Update
import Verif.Spec.Sig
import Verif.Proof.Sig
import Verif.Proof.Verify
import Verif.Proof.History
import Verif.Props.Keys
import Verif.ToyKey
import Verif.Props.History
import Verif.Props.Sig
import Verif.Proof.Prime
import Verif.Proof.Agg
import Verif.Props.Agg
import Verif.Spec.Wire
import Verif.Proof.Serdes
import Verif.Props.Serdes
import Verif.Spec.Ffi
import Verif.Proof.Ffi
import Verif.Props.Ffi
import Verif.Spec.Check
import Verif.Proof.Validate
import Verif.Props.Validate
import Verif.Spec.Forge
import Verif.Proof.Forge
import Verif.Proof.ForgeConv
import Verif.Props.Forge
import Verif.Sha512
import Verif.Kat
import Verif.Model.PyRef
import Verif.Proof.PyRef
import Verif.Props.Python
import Verif.Spec.Game
import Verif.Proof.Game
import Verif.Proof.GameCount
import Verif.Props.Game
import Verif.Model.Memory
import Verif.Spec.Memory
import Verif.Proof.Memory
import Verif.Proof.MemoryUse
import Verif.Props.Memory
import Verif.Props.FfiExact
import Verif.Model.CHeap
import Verif.Spec.CHeap
import Verif.Proof.CHeap
import Verif.Props.CHeap
import Verif.Props.Bias
import Verif.Spec.Document
import Verif.Proof.Document
import Verif.Props.Document
import Verif.Model.Io
import Verif.Spec.Io
import Verif.Proof.Io
import Verif.Props.Io
import Verif.Spec.Schedule
import Verif.Proof.Schedule
import Verif.Props.Schedule
import Verif.Model.Vectors
import Verif.Spec.Vectors
import Verif.Proof.Vectors
import Verif.Props.Vectors
import Verif.Model.Kat
import Verif.Curve.Engine
import Verif.Curve.Field
import Verif.Curve.Pocklington
import Verif.Curve.Torsion
import Verif.Curve.Codec
import Verif.Curve.Bls
import Verif.Curve.Kat
import Verif.Props.Curve
import Verif.Fast.Sha
import Verif.Fast.Hmac
import Verif.Fast.Stream
import Verif.Fast.Run
import Verif.Fast.MakeTest
import Verif.Model.PyParam
import Verif.Spec.Param
import Verif.Props.Param
import Verif.Props.Runs
import Verif.Model.Tests
import Verif.Spec.Tests
import Verif.Proof.Tests
import Verif.Props.Tests
import Verif.Fast.UnitTests
import Verif.Props.UnitTests
import Verif.Model.Trace
import Verif.Spec.Trace
import Verif.Proof.Trace
import Verif.Proof.TraceAlike
import Verif.Props.Trace
import Verif.Model.Debug
import Verif.Proof.Debug
import Verif.Props.Debug
import Verif.Spec.Cost
import Verif.Proof.TraceCost
import Verif.Props.Cost
import Verif.Model.Benches
import Verif.Spec.Benches
import Verif.Proof.Benches
import Verif.Props.Benches
import Verif.Model.CTest
import Verif.Spec.CTest
import Verif.Proof.CTest
import Verif.Props.CTest
import Verif.Spec.Hkdf
import Verif.Proof.Hkdf
import Verif.Props.Hkdf
import Verif.Model.Verbose
import Verif.Spec.Verbose
import Verif.Proof.Verbose
import Verif.Props.Verbose
import Verif.Spec.Reduce
import Verif.Proof.Reduce
import Verif.Proof.ReduceWin
import Verif.Props.Reduce
import Verif.Spec.Oracle
import Verif.Proof.Oracle
import Verif.Props.Oracle
import Verif.Spec.Signer
import Verif.Proof.Signer
import Verif.Props.Signer
import Verif.Spec.Api
import Verif.Proof.Api
import Verif.Proof.Simulate
import Verif.Props.Api
import Verif.Spec.Prf
import Verif.Proof.Prf
import Verif.Props.Prf
import Verif.Spec.Code
import Verif.Proof.Code
import Verif.Proof.Lift
import Verif.Props.Code
import Verif.Spec.Seed
import Verif.Proof.Seed
import Verif.Props.Seed
import Verif.Spec.Bytes
import Verif.Proof.Bytes
import Verif.Props.Bytes
import Verif.Spec.Panic
import Verif.Proof.Panic
import Verif.Props.Panic
import Verif.Spec.Crowd
import Verif.Proof.Crowd
import Verif.Props.Crowd
import Verif.Spec.Heal
import Verif.Proof.Heal
import Verif.Props.Heal
import Verif.Spec.Leak
import Verif.Proof.Leak
import Verif.Props.Leak
import Verif.Spec.Script
import Verif.Proof.Script
import Verif.Props.Script
import Verif.Spec.CGame
import Verif.Proof.CGame
import Verif.Props.CGame
import Verif.Spec.CallGame
import Verif.Proof.CallGame
import Verif.Props.CallGame
import Verif.Spec.WholeCurve
import Verif.Proof.WholeCurve
import Verif.Props.WholeCurve
import Verif.Spec.Box
import Verif.Proof.Box
import Verif.Props.Box
import Verif.Spec.View
import Verif.Proof.View
import Verif.Props.View
import Verif.Spec.Random
import Verif.Proof.Random
import Verif.Proof.RandomView
import Verif.Props.Random
import Verif.Spec.Single
import Verif.Proof.Single
import Verif.Proof.SingleBounds
import Verif.Proof.SingleLift
import Verif.Props.Single
import Verif.Spec.BlackBox
import Verif.Proof.BlackNat
import Verif.Proof.BlackBox
import Verif.Proof.BlackSolve
import Verif.Props.BlackBox
import Verif.Model.DebugPublic
import Verif.Proof.DebugPublic
import Verif.Props.DebugPublic
import Verif.Spec.Meet
import Verif.Proof.Meet
import Verif.Props.Meet
import Verif.Spec.Everyone
import Verif.Proof.Hashing
import Verif.Proof.Everyone
import Verif.Props.Everyone
import Verif.Spec.Recover
import Verif.Proof.Recover
import Verif.Props.Recover
import Verif.Spec.Spill
import Verif.Proof.Spill
import Verif.Props.Spill
import Verif.Spec.Seep
import Verif.Proof.Seep
import Verif.Props.Seep
import Verif.Spec.Errors
import Verif.Proof.Errors
import Verif.Props.Errors
import Verif.Spec.Malformed
import Verif.Proof.Malformed
import Verif.Proof.Altered
import Verif.Props.Malformed
import Verif.Props.Altered
import Verif.Spec.Defects
import Verif.Proof.Defects
import Verif.Props.Defects
import Verif.Spec.Generator
import Verif.Proof.Generator
import Verif.Props.Generator
import Verif.Spec.Neutral
import Verif.Props.Neutral
