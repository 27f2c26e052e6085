import Verif.Model.Utils
import Verif.Spec.Base64
import Verif.Lemmas.Base64
import Verif.Model.DataSet
import Verif.Lemmas.BinInput
import Verif.Lemmas.DataSet
import Verif.Props.Data
import Verif.Model.Discriminator
import Verif.Spec.History
import Verif.Lemmas.Ipow
import Verif.Lemmas.Ram
import Verif.Lemmas.Discriminator
import Verif.Lemmas.Mental
import Verif.Lemmas.Wiring
import Verif.Lemmas.DiscState
import Verif.Props.Discriminator
import Verif.Model.Bleaching
import Verif.Model.Wisard
import Verif.Model.PyOutput
import Verif.Spec.Bleaching
import Verif.Spec.Wisard
import Verif.Lemmas.SMap
import Verif.Lemmas.Bleaching
import Verif.Lemmas.Wisard
import Verif.Lemmas.WisardState
import Verif.Props.Bleaching
import Verif.Props.Wisard
import Verif.Props.PyOutput
import Verif.Model.Json
import Verif.Model.RamData
import Verif.Model.DiscriminatorJson
import Verif.Model.WisardJson
import Verif.Spec.Json
import Verif.Spec.Handle
import Verif.Lemmas.RamData
import Verif.Lemmas.Sim
import Verif.Lemmas.Json
import Verif.Lemmas.RamHandle
import Verif.Props.Json
import Verif.Spec.WisardJson
import Verif.Lemmas.WisardJson
import Verif.Lemmas.WisardReload
import Verif.Props.WisardJson
import Verif.Model.Cluster
import Verif.Model.ClusWisard
import Verif.Spec.Cluster
import Verif.Spec.ClusWisard
import Verif.Lemmas.Cluster
import Verif.Lemmas.ClusterTotal
import Verif.Lemmas.ClusStr
import Verif.Lemmas.ClusWisard
import Verif.Lemmas.ClusVotes
import Verif.Lemmas.ClusLearn
import Verif.Props.ClusWisard
import Verif.Props.ClusLabels
import Verif.Lemmas.ClusSemi
import Verif.Props.ClusSemi
import Verif.Props.ClusMore
import Verif.Props.ClusTotal
import Verif.Props.ClusMade
import Verif.Model.ClusWisardJson
import Verif.Spec.ClusWisardJson
import Verif.Lemmas.ClusSim
import Verif.Lemmas.ClusReload
import Verif.Lemmas.ClusSave
import Verif.Props.ClusWisardJson
import Verif.Model.Synthesizer
import Verif.Props.Synthesizer
import Verif.Model.KernelCanvas
import Verif.Spec.KernelCanvas
import Verif.Lemmas.KernelCanvas
import Verif.Props.KernelCanvas
import Verif.Props.ClusPython
import Verif.Props.MentalImages
import Verif.Props.WisardData
import Verif.Model.JsonText
import Verif.Model.SavedText
import Verif.Spec.JsonText
import Verif.Lemmas.JsonText
import Verif.Lemmas.JsonNumber
import Verif.Lemmas.JsonClosed
import Verif.Props.JsonText
import Verif.Props.JsonParse
import Verif.Props.JsonTrunc
import Verif.Props.SavedText
import Verif.Props.JsonDoc
import Verif.Model.Kwargs
import Verif.Props.Kwargs
import Verif.Props.Memory
import Verif.Lemmas.Truncate
import Verif.Props.Truncate
import Verif.Lemmas.TruncateRam
import Verif.Props.TruncateRam
import Verif.Props.RamFile
import Verif.Props.Semantics
import Verif.Props.Reproducible
import Verif.Props.Labels
import Verif.Spec.LoadJson
import Verif.Props.LoadJson
import Verif.Spec.LoadSafe
import Verif.Props.LoadSafe
import Verif.Props.Rand
import Verif.Model.RandClus
import Verif.Spec.RandClus
import Verif.Props.RandClus
import Verif.Model.PrettyText
import Verif.Props.PrettyText
import Verif.Props.NamedFiles
import Verif.Model.ClusHeap
import Verif.Spec.ClusHeap
import Verif.Lemmas.ClusHeap
import Verif.Props.ClusHeap
import Verif.Model.Progress
import Verif.Props.Progress
import Verif.Model.Ieee
import Verif.Lemmas.Ieee
import Verif.Model.PyFloat
import Verif.Props.PyFloat
import Verif.Props.Double
import Verif.Props.NanArgs
import Verif.Props.CppCtor
import Verif.Props.BBleaching
import Verif.Model.Threads
import Verif.Spec.Threads
import Verif.Lemmas.Prog
import Verif.Lemmas.Threads
import Verif.Lemmas.ThreadsTrain
import Verif.Lemmas.ThreadsClus
import Verif.Lemmas.ThreadsCalls
import Verif.Lemmas.ThreadsUses
import Verif.Lemmas.ThreadsIdem
import Verif.Props.Threads
import Verif.Props.ThreadsClus
import Verif.Spec.AnyState
import Verif.Lemmas.AnyState
import Verif.Props.AnyState
import Verif.Props.AnyStateClus
import Verif.Props.AnyStateMental
import Verif.Model.Disk
import Verif.Spec.Disk
import Verif.Lemmas.Disk
import Verif.Props.Disk
import Verif.Model.Bind
import Verif.Spec.Bind
import Verif.Lemmas.Bind
import Verif.Props.Bind
import Verif.Props.BindLabels
import Verif.Model.Grisu
import Verif.Spec.Grisu
import Verif.Lemmas.Grisu
import Verif.Lemmas.GrisuPow
import Verif.Lemmas.GrisuDigits
import Verif.Lemmas.GrisuMain
import Verif.Lemmas.GrisuRound
import Verif.Lemmas.GrisuText
import Verif.Props.Grisu
import Verif.Props.GrisuApplied
import Verif.Model.PySession
import Verif.Spec.PySession
import Verif.Props.PySession
import Verif.Model.PyClusSession
import Verif.Spec.PyClusSession
import Verif.Props.ClusAll
import Verif.Props.ClusNames
import Verif.Props.PyClusSession
import Verif.Model.PyObjects
import Verif.Spec.PyObjects
import Verif.Props.PyObjects
import Verif.Props.PyDataSet
import Verif.Props.PyDiscriminator
import Verif.Props.PyResults
import Verif.Props.PySynth
import Verif.Spec.Recode
import Verif.Props.Recode
import Verif.Lemmas.RecodeSim
import Verif.Props.RecodeClus
import Verif.Lemmas.Teach
import Verif.Props.Teach
import Verif.Props.TeachClus
import Verif.Spec.Noise
import Verif.Props.Noise
import Verif.Props.LeaveOut
import Verif.Spec.Single
import Verif.Props.Single
import Verif.Props.Repeat
import Verif.Props.NoiseClus
import Verif.Props.ClusGrow
import Verif.Props.Pipeline
import Verif.Model.PySize
import Verif.Props.PySize
import Verif.Props.Reload
import Verif.Model.DataRefs
import Verif.Spec.DataRefs
import Verif.Props.DataRefs
import Verif.Props.Order
import Verif.Props.Units
import Verif.Props.PipelineClus
import Verif.Spec.Life
import Verif.Lemmas.Life
import Verif.Props.Life
import Verif.Spec.Strict
import Verif.Props.Strict
import Verif.Spec.Nested
import Verif.Props.Nested
import Verif.Spec.DataLife
import Verif.Props.DataLife
import Verif.Spec.Scramble
import Verif.Props.Scramble
import Verif.Props.ScrambleClus
import Verif.Props.ScrambleMental
import Verif.Spec.Selective
import Verif.Props.Selective
import Verif.Props.Merge
import Verif.Props.Split
import Verif.Props.Redundant
import Verif.Props.Committee
import Verif.Props.RamOrder
import Verif.Props.Union
import Verif.Spec.Fair
import Verif.Props.Fair
