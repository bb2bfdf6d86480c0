import Verif.Model.Basic
import Verif.Model.Symbol
import Verif.Model.Diff
import Verif.Model.Map
import Verif.Props.Tls
import Verif.Props.Lookup
import Verif.Props.Diff
import Verif.Props.Patchable
import Verif.Props.Map
import Verif.Model.Update
import Verif.Props.Update
import Verif.Model.Elf
import Verif.Model.Insert
import Verif.Model.Read
import Verif.Props.Insert
import Verif.Model.HashInternal
import Verif.Props.HashCode
import Verif.Props.HashInsn
import Verif.Props.HashData
import Verif.Model.HashExternal
import Verif.Props.HashExternal
import Verif.Model.Reconstruct
import Verif.Props.Reconstruct
import Verif.Model.OffsetIds
import Verif.Props.OffsetIds
import Verif.Model.FindFunctions
import Verif.Props.FindFunctions
import Verif.Model.Run
import Verif.Spec.Run
import Verif.Lemmas.Run
import Verif.Props.Run
import Verif.Model.BuildId
import Verif.Spec.BuildId
import Verif.Props.BuildId
import Verif.Model.DebugSym
import Verif.Spec.DebugSym
import Verif.Props.DebugSym
import Verif.Model.Tools
import Verif.Spec.Tools
import Verif.Props.Cli
import Verif.Props.DiffTool
import Verif.Props.Graph
import Verif.Props.Dump
import Verif.Spec.Clear
import Verif.Lemmas.Clear
import Verif.Lemmas.ClearUse
import Verif.Lemmas.ClearUpdate
import Verif.Props.Clear
import Verif.Model.ElfVars
import Verif.Spec.ElfVars
import Verif.Lemmas.PySort
import Verif.Props.ElfVars
import Verif.Props.ElfMerge
import Verif.Props.ElfText
import Verif.Props.ElfCache
import Verif.Model.Daemon
import Verif.Spec.Daemon
import Verif.Props.Daemon
import Verif.Props.DaemonEnd
import Verif.Model.Compare
import Verif.Props.Compare
import Verif.Spec.Compare
import Verif.Model.DwarfTypes
import Verif.Spec.DwarfTypes
import Verif.Spec.DwarfHash
import Verif.Props.DwarfTypes
import Verif.Model.DwarfDefs
import Verif.Spec.DwarfDefs
import Verif.Props.DwarfDefs
import Verif.Props.DwarfHash
import Verif.Spec.Image
import Verif.Lemmas.Image
import Verif.Spec.Targets
import Verif.Lemmas.Targets
import Verif.Props.FileExamples
import Verif.Props.Files
import Verif.Props.FileData
import Verif.Props.FileLinks
import Verif.Props.Targets
import Verif.Props.FileGraph
import Verif.Props.FileRegions
import Verif.Lemmas.ReconFinal
import Verif.Props.FileRecon
import Verif.Spec.Total
import Verif.Lemmas.TotalRead
import Verif.Lemmas.TotalRun
import Verif.Props.Total
import Verif.Props.FileEnds
import Verif.Spec.Boundary
import Verif.Lemmas.Boundary
import Verif.Props.Boundary
import Verif.Model.DwarfParse
import Verif.Spec.DwarfParse
import Verif.Props.DwarfParse
import Verif.Model.DwarfVars
import Verif.Spec.DwarfVars
import Verif.Props.DwarfVars
import Verif.Model.ElfTables
import Verif.Spec.ElfTables
import Verif.Props.ElfTables
import Verif.Lemmas.PySortKey
import Verif.Model.ElfSummary
import Verif.Spec.ElfSummary
import Verif.Props.ElfSummary
import Verif.Props.ElfTypes
import Verif.Spec.Rebase
import Verif.Lemmas.RebaseBase
import Verif.Lemmas.RebaseRead
import Verif.Lemmas.RebaseGather
import Verif.Lemmas.RebaseData
import Verif.Lemmas.RebaseExternal
import Verif.Lemmas.RebaseRun
import Verif.Props.Rebase
import Verif.Lemmas.RebaseExec
import Verif.Lemmas.RebaseHash
import Verif.Model.File
import Verif.Spec.File
import Verif.Props.File
import Verif.Model.ListTools
import Verif.Spec.ListTools
import Verif.Props.ListTools
import Verif.Model.GraphMarks
import Verif.Spec.GraphMarks
import Verif.Props.GraphMarks
import Verif.Model.Listing
import Verif.Spec.Listing
import Verif.Props.Listing
import Verif.Props.RelLines
import Verif.Props.ListRead
import Verif.Model.StatText
import Verif.Spec.Json
import Verif.Spec.StatText
import Verif.Props.StatText
import Verif.Props.Tidy
import Verif.Lemmas.RebaseReconLoop
import Verif.Lemmas.RebaseOffsets
import Verif.Props.RebaseRecon
import Verif.Props.Report
import Verif.Props.CompareRun
import Verif.Props.ChangeText
import Verif.Lemmas.FindKeeps
import Verif.Spec.Stubs
import Verif.Lemmas.Stubs
import Verif.Props.Stubs
import Verif.Model.Detail
import Verif.Spec.Detail
import Verif.Props.Detail
import Verif.Model.DataDump
import Verif.Spec.DataDump
import Verif.Lemmas.DataDump
import Verif.Props.DataDump
import Verif.Model.CodeText
import Verif.Spec.CodeText
import Verif.Lemmas.CodeText
import Verif.Props.CodeText
import Verif.Model.DaemonScript
import Verif.Spec.DaemonScript
import Verif.Props.DaemonScript
import Verif.Model.PyFiles
import Verif.Spec.PyFiles
import Verif.Props.PyFiles
import Verif.Model.CompareText
import Verif.Spec.CompareText
import Verif.Props.CompareText
import Verif.Model.DeclFile
import Verif.Spec.DeclFile
import Verif.Props.DeclFile
import Verif.Model.DwarfText
import Verif.Spec.DwarfText
import Verif.Props.DwarfText
import Verif.Props.RunTls
import Verif.Props.RunPlt
import Verif.Model.Header
import Verif.Props.Header
import Verif.Spec.Approved
import Verif.Props.Approved
import Verif.Model.FileTree
import Verif.Spec.FileTree
import Verif.Props.FileTree
import Verif.Spec.Narrow
import Verif.Props.Narrow
import Verif.Model.DwarfRefs
import Verif.Spec.DwarfRefs
import Verif.Props.DwarfRefs
import Verif.Model.Download
import Verif.Props.Download
import Verif.Model.Listen
import Verif.Spec.Listen
import Verif.Props.Listen
import Verif.Model.VarRun
import Verif.Props.VarRun
import Verif.Model.RelNames
import Verif.Spec.RelNames
import Verif.Props.RelNames
import Verif.Model.NatSort
import Verif.Spec.NatSort
import Verif.Props.NatSort
import Verif.Model.TwoFiles
import Verif.Props.TwoFiles
import Verif.Model.StatRun
import Verif.Props.StatRun
import Verif.Props.CliVerbose
import Verif.Model.OtherRuns
import Verif.Props.OtherRuns
import Verif.Spec.Terminal
import Verif.Model.Styled
import Verif.Props.Styled
import Verif.Model.SymSearch
import Verif.Props.SymSearch
import Verif.Model.DwarfForms
import Verif.Props.DwarfForms
import Verif.Model.DwarfEnums
import Verif.Props.DwarfEnums
import Verif.Model.ComparePatterns
import Verif.Props.ComparePatterns
import Verif.Props.DwarfConst
import Verif.Model.DwarfRun
import Verif.Props.DwarfRun
import Verif.Model.DwarfBits
import Verif.Props.DwarfBits
import Verif.Model.CompareMarkup
import Verif.Props.CompareMarkup
import Verif.Model.CompareExport
import Verif.Props.CompareExport
import Verif.Model.CapstoneDump
import Verif.Props.CapstoneDump
import Verif.Props.DwarfTypeDefs
import Verif.Props.DwarfTypeLines
import Verif.Props.ReportArgs
