import Verif.Vector.Props
import Verif.Str.Props
import Verif.Str.ToStringProps
import Verif.Map.Props
import Verif.Algo.Props
import Verif.Stream.Props
import Verif.Hash.Props
import Verif.Ratio.Props
import Verif.Math.Props
import Verif.Math.FloorProps
import Verif.Math.LimitsProps
import Verif.UPtr.Props
import Verif.Seq.Props
import Verif.Opt.Props
import Verif.Ryu.TableProps
import Verif.Ryu.PrintProps
import Verif.Ryu.ParseProps
import Verif.Thread.QueueProps
import Verif.Thread.AtomicProps
import Verif.Thread.ClassProps
import Verif.Thread.SignalProps
import Verif.Float.Real
import Verif.Float.Approx
import Verif.Float.Poly
import Verif.Float.RealMore
import Verif.Float.Half
import Verif.Float.Exact
import Verif.Math.Elem
import Verif.Math.Exp2Poly
import Verif.Math.Exp2Lemmas
import Verif.Math.Exp2
import Verif.Math.PowProps
import Verif.Math.ExpProps
import Verif.Math.Log2Poly
import Verif.Math.Log2
import Verif.Math.LogProps
import Verif.Math.PowError
import Verif.Math.Sqrt
import Verif.Math.SqrtProps
import Verif.Math.TrigReduce
import Verif.Math.SinTail
import Verif.Math.SinPoly
import Verif.Math.SinCos
import Verif.Math.SinCosProps
import Verif.Math.Hyper
import Verif.Math.HyperProps
import Verif.Math.Cbrt
import Verif.Math.CbrtProps
import Verif.Math.Tan
import Verif.Math.TanProps
import Verif.Float.Pack
import Verif.Math.ErfReal
import Verif.Math.ErfPoly
import Verif.Math.Order
import Verif.Math.Erf
import Verif.Math.ErfProps
import Verif.Traits.Model
import Verif.Traits.Spec
import Verif.Traits.Lemmas
import Verif.Traits.Props
import Verif.Traits.Storage
import Verif.Traits.StorageProps
import Verif.Any.Model
import Verif.Any.Spec
import Verif.Any.Lemmas
import Verif.Any.Props
import Verif.TypeInfo.Model
import Verif.TypeInfo.Props
import Verif.Variant.Model
import Verif.Variant.Spec
import Verif.Variant.Lemmas
import Verif.Variant.Wp
import Verif.Variant.Step
import Verif.Variant.Props
import Verif.Variant.Visit
import Verif.Variant.VisitProps
import Verif.Variant.Compare
import Verif.Variant.CompareProps
import Verif.Variant.Typelist
import Verif.Variant.TypelistProps
import Verif.FastFloat.Table
import Verif.FastFloat.Model
import Verif.FastFloat.BigModel
import Verif.FastFloat.TextModel
import Verif.FastFloat.SlowModel
import Verif.FastFloat.TableProps
import Verif.FastFloat.Product
import Verif.FastFloat.Compute
import Verif.FastFloat.ComputeProps
import Verif.FastFloat.Big
import Verif.FastFloat.Hi64
import Verif.FastFloat.SlowRound
import Verif.FastFloat.DigitComp
import Verif.FastFloat.Fast
import Verif.FastFloat.Digits
import Verif.FastFloat.Parse
import Verif.FastFloat.Mantissa
import Verif.FastFloat.Slow
import Verif.FastFloat.FromChars
import Verif.FastFloat.Special
import Verif.FastFloat.Whole
import Verif.FastFloat.Props
import Verif.FastFloat.Portable
import Verif.Tuple.Model
import Verif.Tuple.Lemmas
import Verif.Tuple.CatProps
import Verif.Tuple.Props
import Verif.Opt.CompareProps
import Verif.UPtr.CompareProps
import Verif.Vector.ValarrayProps
import Verif.Exp.Props
import Verif.Exp.VoidProps
import Verif.Exp.ThrowingProps
import Verif.Traits.Init
import Verif.Traits.InitSpec
import Verif.Traits.InitProps
import Verif.Traits.Swap
import Verif.Traits.SwapProps
import Verif.UPtr.Types
import Verif.UPtr.TypesProps
import Verif.Thread.Local
import Verif.Thread.LocalProps
import Verif.Traits.Wrap
import Verif.Traits.WrapProps
import Verif.Thread.Wait
import Verif.Thread.WaitProps
import Verif.Algo.Range
import Verif.Algo.RangeProps
import Verif.Tuple.Make
import Verif.Tuple.MakeProps
import Verif.Stream.Insert
import Verif.Stream.InsertProps
import Verif.Tuple.Promise
import Verif.Tuple.PromiseProps
import Verif.Traits.Result
import Verif.Traits.ResultProps
import Verif.Traits.Braces
import Verif.Traits.BracesProps
import Verif.Traits.Caps
import Verif.Traits.CapsProps
import Verif.Variant.Convert
import Verif.Variant.ConvertProps
import Verif.Thread.Result
import Verif.Thread.ResultProps
import Verif.UPtr.Graph
import Verif.UPtr.GraphLemmas
import Verif.UPtr.GraphProps
import Verif.Exp.Order
import Verif.Exp.OrderProps
import Verif.Vector.Elem
import Verif.Vector.ElemLemmas
import Verif.Vector.ElemProps
import Verif.Map.Keys
import Verif.Map.KeysLemmas
import Verif.Map.KeysProps
import Verif.Vector.Nest
import Verif.Vector.NestLemmas
import Verif.Vector.NestVec
import Verif.Vector.NestTree
import Verif.Vector.NestSwap
import Verif.Vector.NestProps
import Verif.Map.StrKeys
import Verif.Map.StrKeysProps
import Verif.Vector.NestStr
import Verif.Math.Ierf
import Verif.Math.IerfProps
import Verif.Math.IerfCells
import Verif.Math.IerfInv
import Verif.Math.IerfErr
import Verif.Math.IerfInvProps
import Verif.Math.IerfRelProps
import Verif.Math.IdentProps
import Verif.Math.SymProps
