import Verif.Props.Ints
import Verif.Props.Lcg
import Verif.Props.PcgEmul
import Verif.Props.Doubles
import Verif.Props.Buffer
import Verif.Props.XorLinear
import Verif.Props.SeedSeq
import Verif.Props.Chaotic
import Verif.Props.SeedArray
import Verif.Props.BlockCtr
import Verif.Props.BlockPerm
import Verif.Props.CtrMode
import Verif.Props.Mulhilo
import Verif.Props.Simd
import Verif.Props.ChaCha
import Verif.Props.Squares
import Verif.Props.Mt
import Verif.Props.Sfmt
import Verif.Props.SfmtSeed
import Verif.Props.Dsfmt
import Verif.Props.SpeckSse
import Verif.Props.StateRoundTrip
import Verif.Props.StateReject
import Verif.Props.Hc128
import Verif.Props.Reseed
import Verif.Props.Bounds
import Verif.Props.RandomRaw
import Verif.Props.Broadcast
import Verif.Props.Pickle
import Verif.Props.EvalOrder
import Verif.Props.Rdrand
import Verif.Props.RdrandProg
import Verif.Props.WeylLive
import Verif.Props.SimdPower
import Verif.Props.DsfmtPower
import Verif.Props.MtJump
import Verif.Props.ComplexNormal
import Verif.Props.Wishart
import Verif.Props.ExtRandom
import Verif.Props.MvComplex
import Verif.Props.MtPeriod
import Verif.Props.SimdPeriod
import Verif.Props.OutputPeriod
import Verif.Props.PcgOutput
import Verif.Props.MtEquidist
import Verif.Props.CtrEquidist
import Verif.Common.Fips197
import Verif.Common.SpeckSpec
import Verif.Common.ChaChaSpec
import Verif.Model.AesNi
import Verif.Props.AesSpec
import Verif.Props.AesNi
import Verif.Props.SpeckSpec
import Verif.Props.ChaChaSpec
import Verif.Common.ThreefishSpec
import Verif.Model.CtrUnrolled
import Verif.Props.CtrSpec
import Verif.Model.AlignedMalloc
import Verif.Props.AlignedMalloc
import Verif.Model.SimdFlags
import Verif.Props.SimdFlags
import Verif.Model.Entropy
import Verif.Props.Entropy
import Verif.Model.Threads
import Verif.Props.Threads
import Verif.Model.MultiIter
import Verif.Props.MultiIter
import Verif.Model.MvnBatch
import Verif.Props.MvnBatch
import Verif.Common.Counts
import Verif.Common.CountsO
import Verif.Model.Double32
import Verif.Proof.HalfShift
import Verif.Props.Uniform
import Verif.Props.UniformPcg
import Verif.Props.UniformMt
import Verif.Props.UniformCtr
import Verif.Model.Session
import Verif.Common.SessionSpec
import Verif.Proof.Session
import Verif.Props.Session
import Verif.Check.Data
import Verif.Props.Frozen
import Verif.Model.Session2
import Verif.Proof.Session2
import Verif.Props.Session2
import Verif.Model.Session3
import Verif.Proof.Session3
import Verif.Props.Session3
import Verif.Model.Session4
import Verif.Props.Session4
import Verif.Proof.HcPack
import Verif.Props.Session5
import Verif.Check.Hc
import Verif.Model.Session5
import Verif.Props.Session6
import Verif.Model.Session6
import Verif.Props.Session7
import Verif.Model.Session7
import Verif.Props.Session8
import Verif.Props.Session9
import Verif.Props.MtSeed
import Verif.Props.Session10
import Verif.Common.Recipes
import Verif.Proof.Recipes
import Verif.Props.Recipes
import Verif.Model.SeedWords
import Verif.Props.ZeroSeeds
import Verif.Props.SeedStreams
import Verif.Props.RecipesAdvance
import Verif.Props.SeedCounters
import Verif.Common.DocTable
import Verif.Props.DocTable
import Verif.Model.IncArg
import Verif.Props.IncArg
import Verif.Model.KeySeed
import Verif.Props.KeySeed
import Verif.Model.SeedSeqState
import Verif.Props.SeedSeqState
import Verif.Model.CtrSeedCall
import Verif.Props.CtrSeedCall
import Verif.Model.SeedStr
import Verif.Props.SeedStr
import Verif.Model.ExtGen
import Verif.Props.ExtGen
import Verif.Props.ExtGen2
import Verif.Model.Interfaces
import Verif.Props.Interfaces
import Verif.Props.ExtGen3
import Verif.Model.NumpyState
import Verif.Props.NumpyState
import Verif.Props.NumpyState2
import Verif.Props.NumpyState3
