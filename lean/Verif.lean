import Verif.Props.Memory
import Verif.Props.Arena
import Verif.Props.Pool
import Verif.Props.Array
import Verif.Props.HashTable
import Verif.Props.CStr
import Verif.Props.Crc
import Verif.Props.StrBuilder
import Verif.Props.Numbers
import Verif.Props.StrCache
import Verif.Props.MakeCode
import Verif.Props.Fallback
import Verif.Props.TokenFmt
import Verif.Props.Ast
import Verif.Props.Specifiers
import Verif.Props.Strip
import Verif.Props.StripSafe
import Verif.Props.Equal
import Verif.Props.Upfront
import Verif.Props.Bodies
import Verif.Props.Operators
import Verif.Props.Comment
import Verif.Props.EqualSound
import Verif.Props.EqualPrint
import Verif.Props.EqualPrintDemo
import Verif.Props.Interfaces
import Verif.Props.HashTableC
import Verif.Props.Printing
import Verif.Props.PrintingNumbers
import Verif.Props.PrintingRepeat
import Verif.Props.Lexer
import Verif.Props.LexWords
import Verif.Props.LexExact
import Verif.Props.Serialize
import Verif.Props.SerTypes
import Verif.Props.SerFns
import Verif.Props.SerDemo
import Verif.Props.SerVars
import Verif.Props.DefPrint
import Verif.Props.DefPrint2
import Verif.Props.DefBody
import Verif.Props.DefDemo
import Verif.Model.ParserApi
import Verif.Model.Constants
import Verif.Props.Parsing
import Verif.Proof.ParseRun
import Verif.Proof.ReadTok
import Verif.Proof.ReadType
import Verif.Props.ParseDemo
import Verif.Model.Scanner
import Verif.Props.Scanner
import Verif.Model.Builder
import Verif.Props.Builder
import Verif.Model.Csv
import Verif.Props.Csv
import Verif.Props.CsvTable
import Verif.Props.CsvSafe
import Verif.Model.Context
import Verif.Props.Context
import Verif.Props.ReadSpec
import Verif.Props.LayoutSpec
import Verif.Props.Read
import Verif.Props.ReadGlobal
import Verif.Props.ReadDemo
import Verif.Props.ReadGlobalDemo
import Verif.Props.ReadFnSpec
import Verif.Proof.ReadFn
import Verif.Props.ReadRefute
import Verif.Props.ReadRefuteMore
import Verif.Proof.ReadParams
import Verif.Proof.ReadAlias
import Verif.Proof.ReadEnum
import Verif.Proof.ReadUnion
import Verif.Proof.ReadTemplate
import Verif.Props.ReadNameDemo
import Verif.Props.ReadUnionDemo
import Verif.Props.ReadBasesDemo
import Verif.Props.ReadTemplateDemo
import Verif.Props.ReadDirectiveDemo
import Verif.Model.Stream
import Verif.Props.Stream
import Verif.Model.CsvWrite
import Verif.Props.CsvWrite
import Verif.Props.RoundSpec
import Verif.Proof.Round
import Verif.Proof.RoundType
import Verif.Proof.RoundVar
import Verif.Proof.RoundFn
import Verif.Proof.RoundAlias
import Verif.Proof.RoundCalls
import Verif.Proof.RoundBody
import Verif.Proof.RoundMembers
import Verif.Proof.RoundTop
import Verif.Proof.RoundAgain
import Verif.Props.Round
import Verif.Props.RoundDemo
import Verif.Model.AdtNumber
import Verif.Props.AdtNumberSpec
import Verif.Proof.AdtNumber
import Verif.Props.AdtNumber
import Verif.Proof.AdtPrint
import Verif.Props.AdtPrint
import Verif.Props.AdtRefute
import Verif.Model.Adt
import Verif.Props.AdtSpec
import Verif.Proof.AdtTree
import Verif.Proof.AdtAppend
import Verif.Props.Adt
import Verif.Proof.AdtFind
import Verif.Proof.AdtQuery
import Verif.Proof.AdtDestroy
import Verif.Props.AdtMore
import Verif.Props.AdtRemove
import Verif.Props.AdtDemo
import Verif.Model.Os
import Verif.Model.Files
import Verif.Props.FilesSpec
import Verif.Props.Files
import Verif.Props.FilesOpen
import Verif.Props.FilesTrouble
import Verif.Props.FilesUse
import Verif.Props.FilesBuilder
import Verif.Props.Tools
import Verif.Props.ToolsUse
import Verif.Props.CondBlock
import Verif.Model.EnumTables
import Verif.Props.EnumTablesSpec
import Verif.Proof.EnumTables
import Verif.Props.EnumTables
import Verif.Props.EnumTablesDemo
import Verif.Props.EnumTablesCodes
import Verif.Props.EnumTablesCodesDemo
import Verif.Props.Corners
import Verif.Props.UniqueName
import Verif.Props.SelectMacro
import Verif.Props.SwapRegion
import Verif.Props.EnumToC
import Verif.Props.EnumToCDemo
import Verif.Props.EnumToCRefute
