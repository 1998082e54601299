import Verif.Model.BinaryParser
import Verif.Tests
import Verif.Props.Safety
import Verif.Props.Panic
import Verif.Props.DataTypes
import Verif.Props.Messages
import Verif.Props.Arrays
import Verif.Props.Records
import Verif.Props.Members
import Verif.Props.Trace
import Verif.TestsSerde
import Verif.Props.Serde
import Verif.Props.SerdeValues
import Verif.Props.SerdeScalars
import Verif.Props.SerdeStruct
import Verif.Props.SerdeOrder
import Verif.Props.SerdeMessages
import Verif.Props.Unfold
import Verif.Props.Size
import Verif.Spec.Text
import Verif.Props.Text
import Verif.Spec.Calls
import Verif.Props.Calls
import Verif.Props.Handed
import Verif.Props.CallDepth
import Verif.Props.ArrayLength
import Verif.Props.Errors
import Verif.Props.ReportText
import Verif.Spec.Write
import Verif.Lemmas.Write
import Verif.Lemmas.Places
import Verif.Props.Write
import Verif.Spec.Decode
import Verif.Spec.Typed
import Verif.Props.SerdeExact
import Verif.Props.SerdeTyped
import Verif.Spec.Errors
import Verif.Spec.Rejected
import Verif.Lemmas.Broken
import Verif.Lemmas.BrokenRec
import Verif.Lemmas.BrokenKnot
import Verif.Lemmas.BrokenMethod
import Verif.Lemmas.BrokenMessage
import Verif.Props.Reports
import Verif.Props.Scalars
import Verif.Spec.Panics
import Verif.Lemmas.PanicsRec
import Verif.Lemmas.PanicsKnot
import Verif.Props.Panics
import Verif.Model.Work
import Verif.Spec.Work
import Verif.Lemmas.WorkSame
import Verif.Lemmas.Work
import Verif.Lemmas.WorkKnot
import Verif.Lemmas.WorkPrice
import Verif.Lemmas.WorkReads
import Verif.Lemmas.WorkSlow
import Verif.Props.Work
import Verif.Props.Width
import Verif.Props.SerdeTextCases
import Verif.Props.Cases
import Verif.Props.Equality
import Verif.Props.SerdeBorrow
import Verif.Props.SerdeAny
import Verif.Props.Evolve
import Verif.Props.Truncated
import Verif.Props.Independent
import Verif.Spec.Encodings
import Verif.Lemmas.Encodings
import Verif.Props.Encodings
import Verif.Spec.EqualResults
import Verif.Props.EqualResults
import Verif.Spec.Widen
import Verif.Props.Widen
import Verif.Props.Writers
import Verif.Model.Visitor
import Verif.Spec.Visitor
import Verif.Props.Visitors
import Verif.Props.VisitorsOnce
import Verif.Model.RustTypes
import Verif.Props.RustTypes
import Verif.Spec.Related
import Verif.Props.Related
import Verif.Spec.LookSame
import Verif.Props.LookSame
import Verif.Props.Probe
import Verif.Props.VisitorsTold
import Verif.Spec.Rounding
import Verif.Model.Floats
import Verif.Props.Rounding
import Verif.Props.Floats
import Verif.Model.Decimals
import Verif.Spec.Decimals
import Verif.Props.Decimals
import Verif.Props.RootOption
import Verif.Spec.Reasons
import Verif.Props.Reasons
import Verif.Spec.Log
import Verif.Spec.Renamed
import Verif.Spec.Texts
import Verif.Spec.Numbers
import Verif.Props.Cycles
import Verif.Model.DecimalDe
import Verif.Props.DecimalDe
import Verif.Props.Renamed
import Verif.Lemmas.Strict
import Verif.Props.RenamedWritten
import Verif.Props.Texts
import Verif.Props.Numbers
import Verif.Spec.TextsOpaque
import Verif.Props.TextsOpaque
import Verif.Props.CasesSerde
import Verif.Props.CasesVisitors
