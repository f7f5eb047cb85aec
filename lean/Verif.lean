import Verif.Model.Parser
import Verif.Props.Get
import Verif.Props.Set
import Verif.Props.Errors
import Verif.Props.Bulk
import Verif.Props.Make
import Verif.Props.Miss
import Verif.Props.Delete
import Verif.Props.Add
import Verif.Props.SetKey
import Verif.Props.NoPanic
import Verif.Props.Iterate
import Verif.Props.Types
import Verif.Props.Format
import Verif.Props.Array
import Verif.Props.Scheme
import Verif.Props.Mutate
import Verif.Props.Walk
import Verif.Props.Rfc
import Verif.Props.Parser
import Verif.Props.ParserSync
import Verif.Props.ParserMore
import Verif.Props.Bytes
import Verif.Props.Refuse
import Verif.Props.Mem
import Verif.Props.Algebra
import Verif.Props.Position
import Verif.Props.ParserRefuse
import Verif.Props.Robust
import Verif.Props.RobustParse
import Verif.Model.ByteMem
import Verif.Model.IterMem
import Verif.Proof.ByteMem
import Verif.Props.ByteMem
import Verif.Proof.IterMem
import Verif.Props.IterMem
import Verif.Model.ParserPtr
import Verif.Proof.PtrTree
import Verif.Proof.PtrParse
import Verif.Proof.PtrMut
import Verif.Proof.PtrNode
import Verif.Proof.PtrOps
import Verif.Proof.PtrInsert
import Verif.Proof.PtrRead
import Verif.Proof.PtrWorld
import Verif.Props.ParserPtr
import Verif.Go.Syntax
import Verif.Go.Sem
import Verif.Go.Parse
import Verif.Go.Source
import Verif.Go.Package
import Verif.Go.Attr
import Verif.Go.Run
import Verif.Go.Core
import Verif.Go.Find
import Verif.Go.Utils
import Verif.Go.Scan
import Verif.Go.Get
import Verif.Go.Set
import Verif.Go.SetMore
import Verif.Go.Add
import Verif.Go.Insert
import Verif.Go.AddMore
import Verif.Go.Type
import Verif.Go.Array
import Verif.Go.Others
import Verif.Go.Keys
import Verif.Go.Iter
import Verif.Go.Make
import Verif.Go.Text
import Verif.Props.Text
import Verif.Proof.Depth
import Verif.Props.Depth
import Verif.Go.JO
import Verif.Go.Param
import Verif.Go.Walk
import Verif.Go.Maps
import Verif.Go.Scheme
import Verif.Props.TextMore
import Verif.Go.Heap
import Verif.Go.PCore
import Verif.Go.Parser
import Verif.Go.ParserM
import Verif.Go.ParserLoops
import Verif.Go.ParserSet
import Verif.Go.ParserAdd
import Verif.Go.ParserInsert
import Verif.Go.ParserNew
import Verif.Go.ParserKeep
import Verif.Go.ParserText
import Verif.Props.TextParser
import Verif.Go.ParserTyped
import Verif.Go.ParserArray
import Verif.Go.ParserAll
import Verif.Props.TextSync
import Verif.Model.Fmt
import Verif.Go.Errors
import Verif.Go.Tree
import Verif.Props.TextErrors
import Verif.Props.TextTree
import Verif.Props.TreeFull
import Verif.Model.ParserMem
import Verif.Proof.ParserMem
import Verif.Proof.ParserMemOps
import Verif.Proof.ParserMemWorld
import Verif.Props.ParserMem
import Verif.Props.ParserMemShare
import Verif.Spec.Number
import Verif.Model.ParseFloat
import Verif.Proof.ParseFloat
import Verif.Props.Number
import Verif.Spec.Utf8
import Verif.Proof.Utf8
import Verif.Props.Utf8
import Verif.Props.Utf8Make
import Verif.Props.Utf8Parser
import Verif.Props.TextRound
import Verif.Props.TextRead
import Verif.Props.MakeSlice
import Verif.Props.TextRfc
import Verif.Props.TextUtf8
import Verif.Props.TextUtf8Parser
import Verif.Props.TextParserMore
import Verif.Props.TextBytes
import Verif.Props.FormatMut
import Verif.Props.TextFormat
import Verif.Props.ListsFollow
import Verif.Props.TextLists
import Verif.Spec.Plain
import Verif.Props.Session
import Verif.Props.TextSession
import Verif.Model.Float
import Verif.Proof.Float
import Verif.Props.Float
import Verif.Props.TextFloat
import Verif.Props.MakeFloat
import Verif.Props.FloatTrip
import Verif.Props.Fresh
import Verif.Props.TextFresh
import Verif.Props.Aside
import Verif.Props.TextAside
import Verif.Props.Deep
import Verif.Props.TextDeep
import Verif.Props.Taken
import Verif.Props.Moved
import Verif.Props.Plain
import Verif.Props.Built
import Verif.Props.TextBuilt
import Verif.Props.Builds
import Verif.Props.TextBuilds
import Verif.Props.Agree
import Verif.Props.TextAgree
import Verif.Proof.Commas
import Verif.Props.InsertExact
import Verif.Props.Commute
import Verif.Props.Interleave
import Verif.Props.TextCommute
import Verif.Props.Relative
import Verif.Props.TextRelative
import Verif.Props.FormatSession
import Verif.Props.ParserSession
import Verif.Props.CommuteSame
import Verif.Props.TextCommuteSame
import Verif.Props.CommuteEntries
import Verif.Props.ParserCommute
import Verif.Model.ParserNil
import Verif.Go.ParserAddNil
import Verif.Props.ParserNil
import Verif.Proof.Lost
import Verif.Props.Lost
import Verif.Props.TextLost
