import Verif.Lib.Order
import Verif.Lib.Dot
import Verif.Proofs.Vec
import Verif.Proofs.PointProofs
import Verif.Spec.Challenges
import Verif.Proofs.InnerProd
import Verif.Spec.Transcripts
import Verif.Proofs.Soundness
import Verif.Spec.Toy
import Verif.Props.PointProofs
import Verif.Props.InnerProd
import Verif.Model.Base
import Verif.Model.Common
import Verif.Model.PointProofs
import Verif.Model.InnerProd
import Verif.Model.IterReduce
import Verif.Props.InnerProdSound
import Verif.Model.Range
import Verif.Proofs.IterReduce
import Verif.Proofs.Bits
import Verif.Spec.Multilinear
import Verif.Spec.IrTranscripts
import Verif.Proofs.IrSoundness
import Verif.Props.IterReduce
import Verif.Proofs.Range
import Verif.Proofs.RangeSound
import Verif.Props.Range
import Verif.Model.Sum
import Verif.Model.Poe
import Verif.Proofs.Tab
import Verif.Proofs.Poe
import Verif.Spec.PoeTranscripts
import Verif.Props.Poe
import Verif.Proofs.Sum
import Verif.Proofs.SumSound
import Verif.Props.Sum
import Verif.Proofs.SumExtract
import Verif.Props.SumForge
import Verif.Spec.Forge
import Verif.Proofs.IpaForge
import Verif.Props.IpaForge
import Verif.Props.Paths
import Verif.Props.Sparse
import Verif.Props.Verkle
import Verif.Props.Pol
import Verif.Props.PolParams
import Verif.Props.PolForge
import Verif.Props.PolMisc
import Verif.Props.Challenge
import Verif.Props.Vectors
import Verif.Props.Scratch
import Verif.Props.Oracles
import Verif.Props.Crash
import Verif.Props.Schedule
import Verif.Spec.RangeTranscripts
import Verif.Proofs.RangeExtract
import Verif.Proofs.RangeLink
import Verif.Proofs.RangeHonest
import Verif.Props.RangeSound
import Verif.Props.SumAggregated
import Verif.Spec.PoeBatch
import Verif.Proofs.PoeBatch
import Verif.Props.PoeBatch
import Verif.Spec.SumAggregated
import Verif.Spec.RangeGens
import Verif.Spec.LiabilityTranscripts
import Verif.Proofs.TreeSum
import Verif.Proofs.LiabilitySound
import Verif.Props.LiabilitySound
import Verif.Model.Bench
import Verif.Spec.Bench
import Verif.Proofs.Bench
import Verif.Props.Bench
import Verif.Spec.Deviation
import Verif.Proofs.VerkleExact
import Verif.Proofs.Deviation
import Verif.Props.Exact
import Verif.Spec.Privacy
import Verif.Proofs.Mask
import Verif.Proofs.SumPrivacy
import Verif.Proofs.RangePrivacy
import Verif.Props.SumPrivacy
import Verif.Props.RangePrivacy
import Verif.Proofs.PoePrivacy
import Verif.Props.PoePrivacy
import Verif.Spec.PolPrivacy
import Verif.Proofs.PolPrivacy
import Verif.Proofs.TreePrivacy
import Verif.Proofs.ViewPrivacy
import Verif.Props.ViewPrivacy
import Verif.Props.Updates
import Verif.Spec.Stream
import Verif.Proofs.Stream
import Verif.Props.Stream
import Verif.Model.Linked
import Verif.Spec.Linked
import Verif.Proofs.Linked
import Verif.Props.Linked
import Verif.Spec.PathLengths
import Verif.Proofs.PathLengths
import Verif.Props.PathLengths
import Verif.Proofs.NewTree
import Verif.Props.NewTree
import Verif.Spec.Provers
import Verif.Proofs.Rewind
import Verif.Props.Rewind
import Verif.Spec.RangeProvers
import Verif.Proofs.RewindRange
import Verif.Props.RewindRange
import Verif.Spec.LiabilityProvers
import Verif.Proofs.RewindLiability
import Verif.Props.RewindLiability
import Verif.Spec.RangeForge
import Verif.Proofs.RangeForge
import Verif.Proofs.RangeForgeCount
import Verif.Props.RangeForge
import Verif.Spec.Binding
import Verif.Proofs.Binding
import Verif.Props.Binding
import Verif.Model.Recover
import Verif.Proofs.Recover
import Verif.Proofs.RecoverTree
import Verif.Proofs.RecoverFresh
import Verif.Proofs.RecoverSet
import Verif.Proofs.RecoverLeft
import Verif.Proofs.RecoverKept
import Verif.Props.Recover
import Verif.Proofs.Lengths
import Verif.Props.ProofSize
import Verif.Model.Report
import Verif.Spec.Report
import Verif.Proofs.Report
import Verif.Props.Report
import Verif.Model.Ptr
import Verif.Model.PtrBp
import Verif.Model.PtrRange
import Verif.Model.PtrSum
import Verif.Model.PtrPoe
import Verif.Model.PtrPol
import Verif.Spec.Pointers
import Verif.Spec.Session
import Verif.Proofs.Ptr
import Verif.Proofs.PtrBp
import Verif.Proofs.PtrRange
import Verif.Proofs.PtrSum
import Verif.Proofs.PtrPoe
import Verif.Proofs.PtrPol
import Verif.Proofs.PtrSet
import Verif.Proofs.PtrSession
import Verif.Props.Pointers
import Verif.Model.Tests
import Verif.Proofs.Tests
import Verif.Props.Tests
import Verif.Spec.Generators
import Verif.Proofs.Generators
import Verif.Props.Generators
import Verif.Spec.Shape
import Verif.Proofs.Shape
import Verif.Proofs.Cut
import Verif.Props.Shape
import Verif.Spec.Surplus
import Verif.Proofs.Surplus
import Verif.Props.Surplus
import Verif.Spec.SameRoot
import Verif.Proofs.SameRoot
import Verif.Props.SameRoot
import Verif.Spec.Replay
import Verif.Props.Replay
import Verif.Spec.Rewrite
import Verif.Proofs.Rewrite
import Verif.Props.Rewrite
import Verif.Props.Overflow
import Verif.Props.Scalars
import Verif.Props.Adaptive
import Verif.Props.Restart
import Verif.Props.Timeline
import Verif.Props.Returns
import Verif.Props.Concurrent
import Verif.Props.Writers
import Verif.Props.WritersAny
import Verif.Props.MapOrder
import Verif.Model.Lost
import Verif.Props.Lost
import Verif.Model.Shared
import Verif.Props.Shared
import Verif.Model.Access
import Verif.Props.Access
import Verif.Model.Faults
import Verif.Props.Faults
import Verif.Props.Algebraic
import Verif.Props.Storage
import Verif.Props.Nil
import Verif.Props.Damage
import Verif.Props.Oblivious
import Verif.Props.Work
import Verif.Props.WorkVerify
import Verif.Props.WorkSet
import Verif.Props.Hostile
import Verif.Props.WorkSetup
import Verif.Props.HostileRecover
import Verif.Props.Equivocate
import Verif.Props.WeakSecret
import Verif.Props.Malleable
import Verif.Model.NilScalars
import Verif.Spec.NilScalars
import Verif.Proofs.NilScalars
import Verif.Props.NilScalars
import Verif.Props.Stale
import Verif.Props.TotalOnce
import Verif.Proofs.MainReturns
import Verif.Props.Incomplete
import Verif.Model.ManyVerify
import Verif.Proofs.ManyVerify
import Verif.Props.ManyVerify
import Verif.Props.TotalSums
import Verif.Props.TotalDuring
