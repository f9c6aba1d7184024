import Verif.Conformance.Algorithm
import Verif.Conformance.Common
import Verif.Conformance.Double
import Verif.Conformance.Int
import Verif.Conformance.Set
import Verif.Lemmas.Accum
import Verif.Lemmas.Algorithm
import Verif.Lemmas.Arith
import Verif.Lemmas.BinFmt
import Verif.Lemmas.BinFmt2
import Verif.Lemmas.Blend
import Verif.Lemmas.CSet
import Verif.Lemmas.Constraint
import Verif.Lemmas.ConstraintDisj
import Verif.Lemmas.Corner
import Verif.Lemmas.Elem
import Verif.Lemmas.Enumerate
import Verif.Lemmas.Exact
import Verif.Lemmas.FltArith
import Verif.Lemmas.Hull
import Verif.Lemmas.IntArith
import Verif.Lemmas.Interpolate
import Verif.Lemmas.MixedFn
import Verif.Lemmas.Partition
import Verif.Lemmas.Piecewise
import Verif.Lemmas.Pow
import Verif.Lemmas.Program
import Verif.Lemmas.ProgramIso
import Verif.Lemmas.ProgramMulti
import Verif.Lemmas.ProgramMultiIso
import Verif.Lemmas.Propagate
import Verif.Lemmas.Tight
import Verif.Lemmas.Val
import Verif.Model.Algorithm
import Verif.Model.Arith
import Verif.Model.BoolSet
import Verif.Model.CSet
import Verif.Model.Constraint
import Verif.Model.ConstraintMixed
import Verif.Model.ConstraintMulti
import Verif.Model.ConstraintStale
import Verif.Model.ConstraintTree
import Verif.Model.Convert
import Verif.Model.Deduce
import Verif.Model.Deleted
import Verif.Model.Elem
import Verif.Model.Examples
import Verif.Model.Flt
import Verif.Model.FltArith
import Verif.Model.FltClass
import Verif.Model.IntArith
import Verif.Model.IntVal
import Verif.Model.Interpolate
import Verif.Model.Interval
import Verif.Model.Iter
import Verif.Model.Mixed
import Verif.Model.MixedFn
import Verif.Model.Narrow
import Verif.Model.NarrowFlt
import Verif.Model.NarrowInt
import Verif.Model.Natvis
import Verif.Model.Outcome
import Verif.Model.Overload
import Verif.Model.Programs
import Verif.Model.Readme
import Verif.Model.RealLibm
import Verif.Model.Regular
import Verif.Model.Scalar
import Verif.Model.ScalarMath
import Verif.Model.SearchCmp
import Verif.Model.SearchMixed
import Verif.Model.Sign
import Verif.Model.Stream
import Verif.Model.TableLookup
import Verif.Model.Traits
import Verif.Model.Unsigned
import Verif.Model.Val
import Verif.Props.Access
import Verif.Props.Atan2
import Verif.Props.Basic
import Verif.Props.Blend
import Verif.Props.BlendFlt
import Verif.Props.BlendLinearFlt
import Verif.Props.Compare
import Verif.Props.Constraint
import Verif.Props.ConstraintAgainOr
import Verif.Props.ConstraintConj
import Verif.Props.ConstraintConvert
import Verif.Props.ConstraintFails
import Verif.Props.ConstraintIdempotent
import Verif.Props.ConstraintIsotone
import Verif.Props.ConstraintIsotoneOr
import Verif.Props.ConstraintMixed
import Verif.Props.ConstraintStale
import Verif.Props.ConstraintStaleTree
import Verif.Props.ConstraintTight
import Verif.Props.ConstraintTree
import Verif.Props.Convert
import Verif.Props.ConvertValue
import Verif.Props.Debug
import Verif.Props.Deduce
import Verif.Props.Degenerate
import Verif.Props.Degenerate2
import Verif.Props.Deleted
import Verif.Props.DivMixed
import Verif.Props.DivZero
import Verif.Props.Enumerate
import Verif.Props.Examples
import Verif.Props.Expr
import Verif.Props.ExprRange
import Verif.Props.ExprRate
import Verif.Props.ExprRound
import Verif.Props.Floor
import Verif.Props.FltArith
import Verif.Props.FltClass
import Verif.Props.FltFmt
import Verif.Props.FltLaws
import Verif.Props.FltUnary
import Verif.Props.FnExpr
import Verif.Props.IntArith
import Verif.Props.IntExpr
import Verif.Props.IntLaws
import Verif.Props.Interpolate
import Verif.Props.InterpolateIff
import Verif.Props.InterpolateTight
import Verif.Props.Invalid
import Verif.Props.Isotone
import Verif.Props.IsotoneElem
import Verif.Props.Iter
import Verif.Props.Logic
import Verif.Props.Mixed
import Verif.Props.MixedFn
import Verif.Props.MixedPow
import Verif.Props.MixedSame
import Verif.Props.Monotone
import Verif.Props.NanElem
import Verif.Props.Narrow
import Verif.Props.NarrowFlt
import Verif.Props.NarrowInt
import Verif.Props.Natvis
import Verif.Props.Noexcept
import Verif.Props.Overload
import Verif.Props.OverloadConverse
import Verif.Props.OverloadGeneric
import Verif.Props.OverloadLift
import Verif.Props.OverloadPlain
import Verif.Props.OverloadSelect
import Verif.Props.OverloadSets
import Verif.Props.Partition
import Verif.Props.Piecewise
import Verif.Props.PiecewiseReal
import Verif.Props.Pow
import Verif.Props.PowErr
import Verif.Props.PowFlt
import Verif.Props.PowNeg
import Verif.Props.Program
import Verif.Props.ProgramCall
import Verif.Props.ProgramElem
import Verif.Props.ProgramIso
import Verif.Props.ProgramMulti
import Verif.Props.ProgramMultiIso
import Verif.Props.ProgramMultiPred
import Verif.Props.ProgramMultiSet
import Verif.Props.Programs
import Verif.Props.Propagate
import Verif.Props.PropagateFloat
import Verif.Props.PropagateMixed
import Verif.Props.Readme
import Verif.Props.RealExpr
import Verif.Props.Regular
import Verif.Props.Rounded
import Verif.Props.ScalarMath
import Verif.Props.Search
import Verif.Props.SearchAny
import Verif.Props.SearchBy
import Verif.Props.SearchCost
import Verif.Props.SearchIsotone
import Verif.Props.SearchMixed
import Verif.Props.Select
import Verif.Props.Set
import Verif.Props.Snap
import Verif.Props.Stream
import Verif.Props.Subdivide
import Verif.Props.TableLookup
import Verif.Props.TanFlt
import Verif.Props.Traits
import Verif.Props.Trig
import Verif.Props.TrigFlt
import Verif.Props.TrigReal
import Verif.Props.Unsigned
import Verif.Props.WeightsFlt
import Verif.Props.Wrap
import Verif.Spec.Algorithm
import Verif.Spec.Constraint
import Verif.Spec.ConstraintAgain
import Verif.Spec.ConstraintAgainOr
import Verif.Spec.ConstraintMixed
import Verif.Spec.ConstraintStale
import Verif.Spec.ConstraintTree
import Verif.Spec.Expr
import Verif.Spec.ExprRange
import Verif.Spec.Flt
import Verif.Spec.FltPow
import Verif.Spec.FnExpr
import Verif.Spec.IntArith
import Verif.Spec.IntExpr
import Verif.Spec.Interpolate
import Verif.Spec.Interval
import Verif.Spec.Iter
import Verif.Spec.Laws
import Verif.Spec.Logic
import Verif.Spec.Mixed
import Verif.Spec.MixedFn
import Verif.Spec.Narrow
import Verif.Spec.Natvis
import Verif.Spec.Overload
import Verif.Spec.Piecewise
import Verif.Spec.PiecewiseReal
import Verif.Spec.Program
import Verif.Spec.ProgramMulti
import Verif.Spec.Propagate
import Verif.Spec.PropagateFloat
import Verif.Spec.PropagateMixed
import Verif.Spec.Real
import Verif.Spec.RealExpr
import Verif.Spec.Regular
import Verif.Spec.Rounded
import Verif.Spec.SearchBy
import Verif.Spec.SearchMixed
import Verif.Spec.Set
import Verif.Spec.Snap
import Verif.Spec.Stream
import Verif.Spec.Unsigned
