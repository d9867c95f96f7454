import Verif.StaticVector.Props
import Verif.StaticVector.Exceptions
import Verif.StaticVector.Throwing
import Verif.Flat.Props
import Verif.Flat.Convert
import Verif.Bitset.Props
import Verif.SmallVector.Props
import Verif.SmallVector.Exceptions
import Verif.SmallVector.Throwing
import Verif.PodVector.Props
import Verif.PodVector.Failing
import Verif.PodVector.MachineProps
import Verif.Expected.Props
import Verif.Expected.UnexpectedProps
import Verif.Any.Props
import Verif.Pmr.Props
import Verif.Gen.Props
import Verif.MemOut.Props
import Verif.MemOut.CopyProps
import Verif.MemIn.Props
import Verif.RStream.Props
import Verif.RStream.CopyProps
import Verif.Span.Props
import Verif.MemView.Props
import Verif.StrideSpan.Props
import Verif.StrUtil.Props
import Verif.QAlg.Props
import Verif.TimeT.Props
import Verif.Conc.Core
import Verif.Conc.Lin
import Verif.Conc.Hb
import Verif.Counter.Props
import Verif.ASptr.HbProps
import Verif.RecMutex.Props
import Verif.RecMutex.Hb
import Verif.DataMutex.Props
import Verif.DataMutex.Hb
import Verif.Sentry.Props
import Verif.SharedFrom.Props
import Verif.Utility.Props
import Verif.UFunction.Props
import Verif.UMap.Props
import Verif.UMap.Types
import Verif.ThrowEx.Props
import Verif.TypeTraits.Props
import Verif.BitBuf.Props
import Verif.BitIter.Props
import Verif.FlatOver.Props
import Verif.FlatOver.ThrowProps
import Verif.SmallVector.Cost
import Verif.PodVector.Cost
import Verif.Conc.Live
import Verif.ASptr.Live
import Verif.RecMutex.Live
import Verif.DataMutex.Live
import Verif.MemOut.FailingProps
import Verif.SmallVector.MachineProps
import Verif.UFunction.ReSpec
import Verif.UFunction.Reentrant
import Verif.UFunction.ReLemmas
import Verif.UFunction.ReRefine
import Verif.UFunction.ReProps
import Verif.StaticVector.MoveSpec
import Verif.StaticVector.MoveModel
import Verif.StaticVector.MoveLate
import Verif.StaticVector.MoveFault
import Verif.StaticVector.MoveStep
import Verif.StaticVector.Moving
import Verif.Sentry.ReSpec
import Verif.Sentry.ReModel
import Verif.Sentry.Reentrant
import Verif.SmallVector.MoveSpec
import Verif.SmallVector.MoveModel
import Verif.SmallVector.MoveLate
import Verif.SmallVector.MoveFault
import Verif.SmallVector.MoveTorn
import Verif.SmallVector.MoveRefit
import Verif.SmallVector.MoveStep
import Verif.SmallVector.Moving
import Verif.Expected.ThrowSpec
import Verif.Expected.ThrowModel
import Verif.Expected.ThrowLemmas
import Verif.Expected.Throwing
import Verif.RStream.ScopeSpec
import Verif.RStream.Scope
import Verif.RStream.ScopeProps
import Verif.MakePtr.Spec
import Verif.MakePtr.Model
import Verif.MakePtr.Lemmas
import Verif.MakePtr.Props
import Verif.MemOut.Cost
import Verif.MemOut.CostProps
import Verif.FlatAny.Model
import Verif.FlatAny.Spec
import Verif.FlatAny.Lemmas
import Verif.FlatAny.Props
import Verif.UMap.ThrowProps
import Verif.Conformance.StaticVector
import Verif.Conformance.SmallVector
import Verif.Conformance.PodVector
import Verif.Conformance.Flat
import Verif.Conformance.Bitset
import Verif.Conformance.Streams
import Verif.Conformance.QAlg
import Verif.Conformance.StrUtil
import Verif.Conformance.Gen
import Verif.Conformance.TimeT
import Verif.Conformance.Any
import Verif.Conformance.Expected
import Verif.Conformance.Span
import Verif.Conformance.Small
import Verif.Bitset.Cost
import Verif.Bitset.CostProps
import Verif.StaticVector.Stable
import Verif.StaticVector.StableRun
import Verif.SmallVector.Stable
import Verif.SmallVector.StableRun
import Verif.PodVector.Stable
import Verif.PodVector.StableRun
