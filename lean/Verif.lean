import Verif.Lemmas.AbbrDict
import Verif.Lemmas.AbbrEval
import Verif.Lemmas.AbbrProg
import Verif.Lemmas.AbbrStep
import Verif.Lemmas.AbbrWrite
import Verif.Lemmas.Again
import Verif.Lemmas.Agree
import Verif.Lemmas.Ahead
import Verif.Lemmas.AlongCheck
import Verif.Lemmas.Assign
import Verif.Lemmas.Basic
import Verif.Lemmas.BasicWrite
import Verif.Lemmas.CppAhead
import Verif.Lemmas.CppBlock
import Verif.Lemmas.CppDict
import Verif.Lemmas.CppEnv
import Verif.Lemmas.CppFld
import Verif.Lemmas.CppGen
import Verif.Lemmas.CppLines
import Verif.Lemmas.CppLook
import Verif.Lemmas.CppMain
import Verif.Lemmas.CppPut
import Verif.Lemmas.CppPy
import Verif.Lemmas.CppRec
import Verif.Lemmas.CppRun
import Verif.Lemmas.CppSect
import Verif.Lemmas.CppWEnv
import Verif.Lemmas.CppWLook
import Verif.Lemmas.CppWSim
import Verif.Lemmas.CppWrite
import Verif.Lemmas.Digits
import Verif.Lemmas.DotText
import Verif.Lemmas.Eval
import Verif.Lemmas.ExchangeFile
import Verif.Lemmas.ExpForm
import Verif.Lemmas.ExpWrite
import Verif.Lemmas.Extend
import Verif.Lemmas.FieldsAgain
import Verif.Lemmas.FitCheck
import Verif.Lemmas.Float
import Verif.Lemmas.FloatInv
import Verif.Lemmas.Forward
import Verif.Lemmas.ForwardAct
import Verif.Lemmas.ForwardProg
import Verif.Lemmas.Interp
import Verif.Lemmas.InterpWrite
import Verif.Lemmas.Level
import Verif.Lemmas.Levels
import Verif.Lemmas.Locate
import Verif.Lemmas.Plain
import Verif.Lemmas.ReadStep
import Verif.Lemmas.Records
import Verif.Lemmas.RenderOk
import Verif.Lemmas.Replay
import Verif.Lemmas.ReplayRead
import Verif.Lemmas.Reread
import Verif.Lemmas.RereadRec
import Verif.Lemmas.Rewrite
import Verif.Lemmas.RewriteProg
import Verif.Lemmas.SameLines
import Verif.Lemmas.Sections
import Verif.Lemmas.SimProg
import Verif.Lemmas.Simulate
import Verif.Lemmas.Stable
import Verif.Lemmas.TidyCheck
import Verif.Lemmas.Trafo
import Verif.Lemmas.WholeCheck
import Verif.Lemmas.Wider
import Verif.Lemmas.Write
import Verif.Model.Arrays
import Verif.Model.Cli
import Verif.Model.CliOpts
import Verif.Model.CliStatus
import Verif.Model.Compare
import Verif.Model.Cpp
import Verif.Model.CppAbbr
import Verif.Model.CppArr
import Verif.Model.CppFile
import Verif.Model.CppFun
import Verif.Model.CppLib
import Verif.Model.CppLines
import Verif.Model.CppTape
import Verif.Model.CppWrite
import Verif.Model.CppWriteFun
import Verif.Model.Dict
import Verif.Model.Eval
import Verif.Model.Explain
import Verif.Model.Fields
import Verif.Model.Files
import Verif.Model.Ident
import Verif.Model.Mapping
import Verif.Model.Matching
import Verif.Model.Obj
import Verif.Model.Parse
import Verif.Model.PathText
import Verif.Model.Plumbing
import Verif.Model.Py
import Verif.Model.Recipe
import Verif.Model.Recipe451
import Verif.Model.RecipeWrite
import Verif.Model.Records
import Verif.Model.Ring
import Verif.Model.Sections
import Verif.Model.Shifter
import Verif.Model.Shipped
import Verif.Model.Show
import Verif.Model.Track
import Verif.Model.Trafo
import Verif.Model.TreeUtils
import Verif.Model.UserTools
import Verif.Model.Value
import Verif.Model.Write
import Verif.Props.Abbr
import Verif.Props.AbbrWrite
import Verif.Props.Arrays
import Verif.Props.BothFile
import Verif.Props.Cli
import Verif.Props.Cli451
import Verif.Props.CliCompare
import Verif.Props.CliCpp
import Verif.Props.CliOpts
import Verif.Props.CliStatus
import Verif.Props.Compare
import Verif.Props.Cpp
import Verif.Props.CppArr
import Verif.Props.CppFun
import Verif.Props.CppLib
import Verif.Props.CppLines
import Verif.Props.CppTape
import Verif.Props.CppTapeWrite
import Verif.Props.CppVec
import Verif.Props.CppWrite
import Verif.Props.CppWriteFun
import Verif.Props.Cycle
import Verif.Props.Directory
import Verif.Props.Eval
import Verif.Props.Exchange
import Verif.Props.ExchangeFile
import Verif.Props.Explain
import Verif.Props.Fields
import Verif.Props.Files
import Verif.Props.Forward
import Verif.Props.Ident
import Verif.Props.Interp
import Verif.Props.Matching
import Verif.Props.Parse
import Verif.Props.Path
import Verif.Props.PathText
import Verif.Props.Plumbing
import Verif.Props.Recipe451
import Verif.Props.Records
import Verif.Props.Reparse
import Verif.Props.Ring
import Verif.Props.Roundtrip
import Verif.Props.Sections
import Verif.Props.Shifter
import Verif.Props.Shipped
import Verif.Props.ShippedWrite
import Verif.Props.Show
import Verif.Props.Tables
import Verif.Props.Tolerance
import Verif.Props.Track
import Verif.Props.Trafo
import Verif.Props.TreeUtils
import Verif.Props.UserTools
import Verif.Props.Write
import Verif.Spec.Abbr
import Verif.Spec.Along
import Verif.Spec.Close
import Verif.Spec.CppFit
import Verif.Spec.CppOk
import Verif.Spec.CppWriteOk
import Verif.Spec.KindsOf
import Verif.Spec.Layout
import Verif.Spec.Linear
import Verif.Spec.Lines
import Verif.Spec.NumText
import Verif.Spec.Run
import Verif.Spec.Same
import Verif.Spec.Scope
import Verif.Spec.Syn
import Verif.Spec.Tape
import Verif.Spec.Tidy
import Verif.Spec.Whole
