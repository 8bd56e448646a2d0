import Verif.Model.Storage
import Verif.Model.Basics
import Verif.Spec
import Verif.SpecArray
import Verif.Lemmas.ListAux
import Verif.Lemmas.Slice
import Verif.Lemmas.Index
import Verif.Lemmas.Extgcd
import Verif.Lemmas.Dio
import Verif.Lemmas.Gauss
import Verif.Lemmas.InitDio
import Verif.Lemmas.Solve
import Verif.Lemmas.RowMajor
import Verif.Lemmas.Compress
import Verif.Lemmas.Reduce
import Verif.Lemmas.Box
import Verif.Lemmas.Strided
import Verif.Lemmas.Search
import Verif.Lemmas.Sparse
import Verif.Lemmas.Write
import Verif.Lemmas.Build
import Verif.Lemmas.Store
import Verif.Lemmas.SparseSlice
import Verif.Lemmas.Den
import Verif.Lemmas.DMSlice
import Verif.Lemmas.GetItem
import Verif.Lemmas.DMBuild
import Verif.Lemmas.Convert
import Verif.Lemmas.Elements
import Verif.Props.Slices
import Verif.Props.Indexing
import Verif.Props.Diophantine
import Verif.Props.Compress
import Verif.Props.Reduction
import Verif.Props.Search
import Verif.Props.Construct
import Verif.Props.Getting
import Verif.Lemmas.Cell
import Verif.Props.Setting
import Verif.Lemmas.Copy
import Verif.Props.Observing
import Verif.Model.Heap
import Verif.SpecHeap
import Verif.Lemmas.Heap
import Verif.Props.Sharing
import Verif.Lemmas.Keep
import Verif.Lemmas.KeepMake
import Verif.Props.History
import Verif.Props.Equality
import Verif.Lemmas.DMWrite
import Verif.Props.SettingDM
import Verif.Lemmas.Shared
import Verif.Props.EqualList
import Verif.Props.Programs
import Verif.Props.Assigning
import Verif.Props.Ragged
import Verif.Model.Protocol
import Verif.Props.Iterating
import Verif.Model.Positions
import Verif.Props.Positions
import Verif.Props.Direct
import Verif.Props.Probes
import Verif.Model.Lazy
import Verif.Props.Lazy
import Verif.Model.Version
import Verif.Props.Version
import Verif.Props.Archive
import Verif.Model.Text
import Verif.Props.Text
import Verif.Model.Objects
import Verif.Props.Objects
import Verif.Props.ZeroDim
import Verif.Props.Pipelines
import Verif.Model.C2SR
import Verif.Props.C2SR
import Verif.Props.EmptyAxis
import Verif.SpecMachine
import Verif.Lemmas.Machine
import Verif.Lemmas.MachineOps
import Verif.Lemmas.MachineStep
import Verif.Props.Machine
import Verif.Props.ReadOnly
import Verif.Model.Mapped
import Verif.Props.Mapped
import Verif.Props.VersionStyles
import Verif.Props.Constructors
import Verif.Props.TextEqual
import Verif.Props.Fullness
import Verif.Props.Raising
import Verif.Props.Contents
import Verif.Props.SliceContents
import Verif.Model.Keywords
import Verif.Props.Keywords
import Verif.Props.IndexErrors
import Verif.Props.ListErrors
import Verif.Props.DMSlices
import Verif.Props.BufferItems
import Verif.Props.VersionFile
import Verif.Props.VersionAgree
import Verif.Props.GcsArrays
import Verif.Lemmas.SolveLast
import Verif.Props.SolveTwo
import Verif.Model.Setup
import Verif.Props.Setup
import Verif.Model.PyEq
import Verif.Props.AnyEq
import Verif.Props.ViewDM
import Verif.Props.PlainPrograms
import Verif.Props.Frame
import Verif.Props.FrameFrom
import Verif.Props.Operators
import Verif.Props.AnyBuffer
import Verif.Props.SharedIndices
import Verif.Props.RunCommand
import Verif.Props.SetupConfig
import Verif.Props.Commands
import Verif.Props.SetupScript
import Verif.Conformance
