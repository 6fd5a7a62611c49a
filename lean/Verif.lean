import Verif.Model.Acro
import Verif.Model.Api
import Verif.Model.ApiQuery
import Verif.Model.ApiRead
import Verif.Model.ApiWrite
import Verif.Model.BitArr
import Verif.Model.BufStream
import Verif.Model.ByteOrder
import Verif.Model.CmdPar
import Verif.Model.Dates
import Verif.Model.DblStr
import Verif.Model.Diff
import Verif.Model.DiffMain
import Verif.Model.DiffOpts
import Verif.Model.Dump
import Verif.Model.DumpAll
import Verif.Model.DumpBas
import Verif.Model.DumpGams
import Verif.Model.DumpList
import Verif.Model.DumpMain
import Verif.Model.DumpOpts
import Verif.Model.FileFmt
import Verif.Model.Float
import Verif.Model.GmsNum
import Verif.Model.Ieee
import Verif.Model.IntMap
import Verif.Model.IntText
import Verif.Model.Merge
import Verif.Model.MergeMain
import Verif.Model.MergeOpts
import Verif.Model.Names
import Verif.Model.PFile
import Verif.Model.Password
import Verif.Model.Prim
import Verif.Model.RadixSort
import Verif.Model.Rec
import Verif.Model.State
import Verif.Model.StrHash
import Verif.Model.StrList
import Verif.Model.StrUtil
import Verif.Model.Uel
import Verif.Model.Val
import Verif.Model.ValInt
import Verif.Model.XList
import Verif.Spec.CmdLine
import Verif.Spec.Crash
import Verif.Spec.Dates
import Verif.Spec.DiffOpts
import Verif.Spec.DumpOpts
import Verif.Spec.Gams
import Verif.Spec.GamsBas
import Verif.Spec.GamsLoad
import Verif.Spec.GamsProg
import Verif.Spec.IntText
import Verif.Spec.Layout
import Verif.Spec.Listing
import Verif.Spec.MapRead
import Verif.Spec.Maps
import Verif.Spec.MergeOpts
import Verif.Spec.Names
import Verif.Spec.Reading
import Verif.Spec.Records
import Verif.Spec.Sorting
import Verif.Spec.ValInt
import Verif.Spec.Values
import Verif.Spec.Writing
import Verif.Proofs.Arrive
import Verif.Proofs.BitArr
import Verif.Proofs.Block
import Verif.Proofs.BufComp
import Verif.Proofs.BufStream
import Verif.Proofs.CmdLine
import Verif.Proofs.Coll
import Verif.Proofs.CollDone
import Verif.Proofs.CollKey
import Verif.Proofs.Csv
import Verif.Proofs.CurIn
import Verif.Proofs.Dates
import Verif.Proofs.DblStr
import Verif.Proofs.DiffAll
import Verif.Proofs.DiffClose
import Verif.Proofs.DiffEnd
import Verif.Proofs.DiffEvents
import Verif.Proofs.DiffLabels
import Verif.Proofs.DiffLoop
import Verif.Proofs.DiffOpen
import Verif.Proofs.DiffOpts
import Verif.Proofs.DiffRead
import Verif.Proofs.DiffReady
import Verif.Proofs.DiffSteps
import Verif.Proofs.DiffSyms
import Verif.Proofs.DiffWrite
import Verif.Proofs.DomFix
import Verif.Proofs.DumpCsv
import Verif.Proofs.DumpGams
import Verif.Proofs.DumpNames
import Verif.Proofs.DumpOpts
import Verif.Proofs.DumpTable
import Verif.Proofs.Enc
import Verif.Proofs.Evo
import Verif.Proofs.EvoBase
import Verif.Proofs.EvoQuery
import Verif.Proofs.EvoRead
import Verif.Proofs.EvoWrite
import Verif.Proofs.Explained
import Verif.Proofs.Fine
import Verif.Proofs.FirstOf
import Verif.Proofs.Float
import Verif.Proofs.GamsDecl
import Verif.Proofs.GamsLoad
import Verif.Proofs.GamsProg
import Verif.Proofs.GamsRead
import Verif.Proofs.Hist
import Verif.Proofs.Ieee
import Verif.Proofs.IntMap
import Verif.Proofs.Kept
import Verif.Proofs.Listing
import Verif.Proofs.MapKeys
import Verif.Proofs.MapLoop
import Verif.Proofs.MapOrder
import Verif.Proofs.MapRead
import Verif.Proofs.MapScan
import Verif.Proofs.MapStart
import Verif.Proofs.MapStatus
import Verif.Proofs.MapStream
import Verif.Proofs.MergeBig
import Verif.Proofs.MergeBigWrite
import Verif.Proofs.MergeClose
import Verif.Proofs.MergeColl
import Verif.Proofs.MergeCount
import Verif.Proofs.MergeFiles
import Verif.Proofs.MergeInput
import Verif.Proofs.MergeNames
import Verif.Proofs.MergeNum
import Verif.Proofs.MergeOpts
import Verif.Proofs.MergePass
import Verif.Proofs.MergeReg
import Verif.Proofs.MergeRun
import Verif.Proofs.MergeTable
import Verif.Proofs.MergeTake
import Verif.Proofs.MergeWrite
import Verif.Proofs.ModeFree
import Verif.Proofs.Names
import Verif.Proofs.Own
import Verif.Proofs.PFile
import Verif.Proofs.Phase
import Verif.Proofs.PhaseAll
import Verif.Proofs.Prim
import Verif.Proofs.QuickSort
import Verif.Proofs.RadixSort
import Verif.Proofs.RawInv
import Verif.Proofs.RawLog
import Verif.Proofs.RawSeq
import Verif.Proofs.RawSession
import Verif.Proofs.RawTotal
import Verif.Proofs.ReadFix
import Verif.Proofs.ReadStart
import Verif.Proofs.Reading
import Verif.Proofs.Rec
import Verif.Proofs.RecSeq
import Verif.Proofs.Reopen
import Verif.Proofs.ResRel
import Verif.Proofs.Session
import Verif.Proofs.SortInv
import Verif.Proofs.SortLog
import Verif.Proofs.StatInv
import Verif.Proofs.Stored
import Verif.Proofs.StrHash
import Verif.Proofs.SvInv
import Verif.Proofs.SymInv
import Verif.Proofs.TableRound
import Verif.Proofs.Trace
import Verif.Proofs.Twin
import Verif.Proofs.UelInv
import Verif.Proofs.UsrInv
import Verif.Proofs.Val
import Verif.Proofs.ValInt
import Verif.Proofs.WriteInv
import Verif.Proofs.YieldsAs
import Verif.Props.AcronymValue
import Verif.Props.Acronyms
import Verif.Props.Again
import Verif.Props.Append
import Verif.Props.BufStream
import Verif.Props.ByteOrder
import Verif.Props.Callbacks
import Verif.Props.Closing
import Verif.Props.ClosingSorted
import Verif.Props.ClosingTools
import Verif.Props.ClosingWriting
import Verif.Props.CmdLine
import Verif.Props.Crash
import Verif.Props.Damaged
import Verif.Props.Dates
import Verif.Props.DiffBounds
import Verif.Props.DiffEntries
import Verif.Props.DiffFile
import Verif.Props.DiffFileOwn
import Verif.Props.DiffFiles
import Verif.Props.DiffMain
import Verif.Props.DiffNum
import Verif.Props.DiffOpts
import Verif.Props.DiffOwn
import Verif.Props.DiffPair
import Verif.Props.DiffSame
import Verif.Props.DiffSelf
import Verif.Props.DomElems
import Verif.Props.Domains
import Verif.Props.DumpAll
import Verif.Props.DumpBas
import Verif.Props.DumpCsv
import Verif.Props.DumpGams
import Verif.Props.DumpLists
import Verif.Props.DumpLoad
import Verif.Props.DumpMain
import Verif.Props.DumpOpts
import Verif.Props.DumpRuns
import Verif.Props.DumpTable
import Verif.Props.DumpTables
import Verif.Props.Elements
import Verif.Props.Errors
import Verif.Props.IntText
import Verif.Props.Lengths
import Verif.Props.Mapped
import Verif.Props.Maps
import Verif.Props.Merge
import Verif.Props.MergeAll
import Verif.Props.MergeBig
import Verif.Props.MergeMain
import Verif.Props.MergeOpts
import Verif.Props.NameView
import Verif.Props.Names
import Verif.Props.Numbers
import Verif.Props.Opening
import Verif.Props.Password
import Verif.Props.Ranges
import Verif.Props.RawSession
import Verif.Props.Reads
import Verif.Props.Records
import Verif.Props.RecordsGiven
import Verif.Props.RecordsGivenRaw
import Verif.Props.Refused
import Verif.Props.Reopen
import Verif.Props.Repeat
import Verif.Props.Slices
import Verif.Props.SortSession
import Verif.Props.Sorting
import Verif.Props.StrList
import Verif.Props.Streams
import Verif.Props.Strings
import Verif.Props.Survive
import Verif.Props.SymbolTable
import Verif.Props.Texts
import Verif.Props.ValInt
import Verif.Props.Values
import Verif.Props.XList
