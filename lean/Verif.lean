import Verif.Py
import Verif.Num
import Verif.Model.Element
import Verif.Model.Classifier
import Verif.Model.Constraints
import Verif.Model.ActionSet
import Verif.Model.Mip
import Verif.Model.Builder
import Verif.Model.Auditor
import Verif.Model.Flipset
import Verif.Model.Report
import Verif.Model.Settings
import Verif.Spec
import Verif.Examples
import Verif.Lemmas.Bounds
import Verif.Lemmas.Num
import Verif.Lemmas.Except
import Verif.Lemmas.Elem
import Verif.Lemmas.Percentile
import Verif.Lemmas.Synced
import Verif.Props.Grid
import Verif.Props.Values
import Verif.Props.Constraints
import Verif.Lemmas.ActionSet
import Verif.Props.Sets
import Verif.Lemmas.Mip
import Verif.Lemmas.Choice
import Verif.Lemmas.Build
import Verif.Props.Classifier
import Verif.Lemmas.Put
import Verif.Lemmas.History
import Verif.Lemmas.FeatSpec
import Verif.Lemmas.Exec
import Verif.Lemmas.Subset
import Verif.Props.Fit
import Verif.Props.Assign
import Verif.Lemmas.Exchange
import Verif.Lemmas.Slots
import Verif.Props.Optimal
import Verif.Lemmas.Regular
import Verif.Props.Limits
import Verif.Props.Subset
import Verif.Lemmas.Enum
import Verif.Props.Enum
import Verif.Props.Failed
import Verif.Lemmas.Audit
import Verif.Props.Audit
import Verif.Lemmas.Flip
import Verif.Lemmas.Offers
import Verif.Props.Flip
import Verif.Props.FlipUse
import Verif.Props.FlipEx
import Verif.Props.FlipFlat
import Verif.Props.Settings
import Verif.Props.Setters
import Verif.Props.Atomic
import Verif.Props.Percent
import Verif.Model.Reads
import Verif.Props.Reads
import Verif.Props.Report
import Verif.Lemmas.Compare
import Verif.Props.Compare
import Verif.Props.Minimal
import Verif.Props.Relax
import Verif.Model.Construct
import Verif.Props.Items
import Verif.Props.Later
import Verif.Props.Use
import Verif.Props.Construct
import Verif.Props.Symmetry
import Verif.Lemmas.Columns
import Verif.Props.Order
import Verif.Props.OrderLimits
import Verif.Props.OrderLimitsEx
import Verif.Props.Rows
import Verif.Props.Units
import Verif.Props.UnitsEx
import Verif.Props.Agree
import Verif.Props.Alignment
import Verif.Props.Replace
import Verif.Model.Args
import Verif.Props.Args
import Verif.Model.SelfCheck
import Verif.Props.SelfCheck
import Verif.Props.Accept
import Verif.Props.Fresh
import Verif.Props.Ends
import Verif.Props.AcceptAny
import Verif.Props.Slots
import Verif.Props.EnumAny
import Verif.Props.SlotsEx
import Verif.Model.RealExt
import Verif.Props.RealExt
import Verif.Model.Names
import Verif.Props.Names
import Verif.Props.OneHot
import Verif.Props.Solvers
import Verif.Props.SolversEx
import Verif.Props.AuditSolvers
import Verif.Props.AuditSolversEx
import Verif.Props.Tests
import Verif.Model.Cplex
import Verif.Props.Cplex
import Verif.Props.CplexVars
import Verif.Props.CplexStats
import Verif.Model.Script
import Verif.Props.Readme
import Verif.Model.Render
import Verif.Props.Render
import Verif.SpecTol
import Verif.Lemmas.Tolerance
import Verif.Props.Tolerance
import Verif.Props.TolEnum
import Verif.Props.TolEx
import Verif.Rounding
import Verif.Model.Float
import Verif.Props.Float
import Verif.Model.FloatScore
import Verif.Props.FloatScore
import Verif.Model.FloatBuild
import Verif.Props.FloatBuild
import Verif.Props.FloatEx
import Verif.Props.FloatConverse
import Verif.Props.FloatConverseEx
import Verif.Model.FloatAudit
import Verif.Props.FloatAudit
import Verif.Props.FloatAuditEx
import Verif.Model.FloatFlip
import Verif.Props.FloatFlip
import Verif.Props.FloatFlipEx
import Verif.Model.Tables
import Verif.Props.Tables
import Verif.Model.Session
import Verif.Props.Session
import Verif.Props.SessionTwin
import Verif.Props.SessionQuiet
import Verif.Props.SessionEx
import Verif.Model.FloatPercentile
import Verif.Props.FloatPercentile
import Verif.Props.FloatPercentileEx
import Verif.Model.Views
import Verif.Props.Views
import Verif.Props.ViewsEx
import Verif.Model.Arrays
import Verif.Props.Arrays
import Verif.Props.ArraysEx
import Verif.Lemmas.Stable
import Verif.Props.Prefix
import Verif.Props.PrefixEx
import Verif.Props.CostTypes
import Verif.Props.Progress
import Verif.Props.Scale
import Verif.Props.Circumstances
import Verif.Props.CircumstancesMax
import Verif.Props.CircumstancesEx
import Verif.Props.Alike
import Verif.Props.AlikeFlip
import Verif.Props.Refresh
import Verif.Props.Commute
