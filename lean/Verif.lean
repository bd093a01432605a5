import Verif.Props.IdMap
import Verif.Props.Layout
import Verif.Props.Vertex
import Verif.Props.Compress
import Verif.Props.BinSearch
import Verif.Props.TestSearch
import Verif.Props.Load
import Verif.Props.Superstep
import Verif.Props.Run
import Verif.Props.ReadMTX
import Verif.Props.Reduce
import Verif.Props.Bfs
import Verif.Props.Sssp
import Verif.Props.TopSort
import Verif.Props.PageRank
import Verif.Props.FloatPr
import Verif.Props.Tiles
import Verif.Props.FloatText
import Verif.Props.ConvFloat
import Verif.Props.FloatDpr
import Verif.Props.SegCount
import Verif.Props.CopyMem
import Verif.Props.Weak
import Verif.Props.IncPageRank
import Verif.Props.Sgd
import Verif.Props.Lda
import Verif.Props.Intersect
import Verif.Props.Triangles
import Verif.Props.EdgeList
import Verif.Props.DeltaStepping
import Verif.Props.Schedule
import Verif.Props.ApplyEdges
import Verif.Props.Kernel
import Verif.Props.Snapshot
import Verif.Props.VecSnapshot
import Verif.Props.Comm
import Verif.Props.Share
import Verif.Props.EdgeFile
import Verif.Props.EdgeIO
import Verif.Props.SaveVec
import Verif.Props.Formats
import Verif.Props.Formats3
import Verif.Props.FmtSnapshot
import Verif.Props.TileMem
import Verif.Props.SegMem
import Verif.Props.GraphMem
import Verif.Props.AppMem
import Verif.Props.ElMem
import Verif.Props.CmdLine
import Verif.Props.Pipeline
import Verif.Props.PipelineMore
import Verif.Props.ApplyVec
import Verif.Props.Converter
import Verif.Props.Flight
import Verif.Props.Loops
import Verif.Props.LoopKernels
import Verif.Props.LoopBuild
import Verif.Props.LoopVec
import Verif.Props.LoopEdges
import Verif.Props.LoopFmt
import Verif.Props.LoopStep
import Verif.Props.LoopSer
import Verif.Props.MpiCount
import Verif.Props.IntLayout
import Verif.Props.IntFormats
import Verif.Props.TestRuns
import Verif.Props.TestEdges
import Verif.Props.TestIO
import Verif.Props.Mult
import Verif.Props.Mult3
import Verif.Props.VecProg
import Verif.Props.TestVec
import Verif.Model.FmtMat
import Verif.Spec.FmtMat
import Verif.Lemmas.FmtMat
import Verif.Lemmas.FmtProg
import Verif.Lemmas.FmtTest
import Verif.Props.FmtMat
import Verif.Props.FmtMatFail
import Verif.Model.FmtArchive
import Verif.Spec.FmtArchive
import Verif.Lemmas.FmtArchive
import Verif.Props.FmtArchive
import Verif.Spec.AskProg
import Verif.Model.AskProg
import Verif.Lemmas.AskProg
import Verif.Props.AskProg
import Verif.Model.SegRead
import Verif.Props.SegRead
import Verif.Spec.MemoProg
import Verif.Lemmas.MemoProg
import Verif.Lemmas.MemoMul
import Verif.Props.MemoProg
import Verif.Spec.MemoAsk
import Verif.Props.MemoAsk
import Verif.Spec.AskSame
import Verif.Props.AskSame
import Verif.Spec.Script
import Verif.Model.Script
import Verif.Props.Script
import Verif.Spec.ScriptSame
import Verif.Props.ScriptSame
import Verif.Props.RunAgain
import Verif.Spec.Local
import Verif.Props.Local
import Verif.Spec.Rename
import Verif.Props.Rename
import Verif.Spec.Component
import Verif.Props.Component
