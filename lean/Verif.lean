import Verif.Props.MyMath
import Verif.Props.Bytes
import Verif.Props.Psort
import Verif.Props.Hash
import Verif.Props.Mpi
import Verif.Props.ConfigSync
import Verif.Props.HaloIter
import Verif.Props.Restore
import Verif.Props.Kick
import Verif.Props.Exchange
import Verif.Props.Partition
import Verif.Props.HaloExchange
import Verif.Props.Member
import Verif.Props.Centrals
import Verif.Props.Register
import Verif.Props.Hosts
import Verif.Props.Localize
import Verif.Props.Nest
import Verif.Props.Mask
import Verif.Props.Unbind
import Verif.Props.Refine
import Verif.Props.Run
import Verif.Props.RunExample
import Verif.Props.Throttle
import Verif.Props.Catalogue
import Verif.Props.ConfigExample
import Verif.Props.SnapNumber
import Verif.Props.ConfigSync
import Verif.Props.LinkedList
import Verif.Props.LinkedPara
import Verif.Props.OctTree
import Verif.Props.OctSearch
import Verif.Props.GadgetGroup
import Verif.Props.GroupBytes
import Verif.Props.Average
import Verif.Props.Apostle
import Verif.Props.Profile
import Verif.Props.Overdensity
import Verif.Props.ProfileExamples
import Verif.Props.Branch
import Verif.Props.MomentsExamples
import Verif.Props.GadgetSnapExamples
import Verif.Props.Main
import Verif.Props.MainExample
import Verif.Props.SphKernel
import Verif.Props.Spmd
import Verif.Props.Threads
import Verif.Props.ThreadsExample
import Verif.Props.ThreadsCentrals
import Verif.Props.ThreadsCentralsExample
import Verif.Props.Input
import Verif.Props.InputExample
import Verif.Props.MpiTypes
import Verif.Props.Sink
import Verif.Props.Purge
import Verif.Props.Hydro
import Verif.Props.Inclusive
import Verif.Props.InclusiveExample
import Verif.Props.ConfigDefaults
import Verif.Props.ReaderExample
import Verif.Props.NoStripExample
import Verif.Props.ProgramExample
import Verif.Props.ProgramFilesExample
import Verif.Props.SnapList
import Verif.Props.Virial
import Verif.Props.Rounding
import Verif.Props.RoundingRun
import Verif.Props.UnbindEnergy
import Verif.Props.UnbindRefine
import Verif.Props.UnbindStale
import Verif.Props.TreeAccuracy
import Verif.Props.TreeUnbind
import Verif.Props.Cosmology
import Verif.Props.ReaderScale
import Verif.Props.OptionalOutput
import Verif.Props.StoredEnergies
import Verif.Props.StoredRun
import Verif.Props.StoredRunExample
import Verif.Props.SampledEnergy
import Verif.Props.SampledEnergyExample
import Verif.Props.SampleBias
import Verif.Props.SampledUnbind
import Verif.Props.SampledUnbindExample
import Verif.Props.SampledTree
import Verif.Props.Refined
