import Verif.Spec.Types
import Verif.Spec.Ieee
import Verif.Spec.Numeral
import Verif.Spec.Text
import Verif.Spec.Input
import Verif.Spec.Exponent
import Verif.Spec.Special
import Verif.Spec.Error
import Verif.Spec.Rounded
import Verif.Model.Base
import Verif.Model.BitOps
import Verif.Model.Tables
import Verif.Model.DiyFp
import Verif.Model.KComp
import Verif.Model.Grisu
import Verif.Model.Prettify
import Verif.Model.Ftoa
import Verif.Model.Krosh
import Verif.Model.Atof
import Verif.Prop.Ftoa
import Verif.Prop.Words
import Verif.Prop.Atof
import Verif.Prop.RoundTrip
import Verif.Prop.Spelling
import Verif.Prop.Total
import Verif.Prop.Threads
import Verif.Prop.Same
import Verif.Prop.Special
import Verif.Prop.Rest
import Verif.Prop.Long
import Verif.Prop.Errors
import Verif.Prop.Range
import Verif.Prop.Wrapped
import Verif.Prop.Release
import Verif.Proof.Local
import Verif.Prop.Shortest
import Verif.Prop.ShortSmall
import Verif.Prop.CircleSmall
import Verif.Prop.Boundaries
import Verif.Prop.FullCircle
import Verif.Prop.Carry
import Verif.Prop.Monotone
import Verif.Prop.Strings
import Verif.Prop.Print
import Verif.Prop.Helpers
import Verif.Prop.Format
import Verif.Prop.Enough
import Verif.Spec.LastPlace
import Verif.Prop.SignLoss
import Verif.Prop.Sequence
import Verif.Prop.Near
import Verif.Prop.Narrow
import Verif.Prop.BigExponent
import Verif.Prop.Status
import Verif.Prop.Json
import Verif.Prop.Largest
import Verif.Prop.Locale
import Verif.Prop.LocaleChange
import Verif.Prop.RawBuffer
import Verif.Prop.AnyFallback
import Verif.Prop.Literal
import Verif.Prop.Eval
import Verif.Conformance
import Verif.Prop.Cost
import Verif.Prop.Cycles
import Verif.Prop.DefaultFallback
import Verif.Prop.Cut
import Verif.Prop.Alloc
import Verif.Prop.Amount
import Verif.Prop.Whole
import Verif.Prop.LateDigits
import Verif.Prop.Order
import Verif.Prop.Distance
import Verif.Prop.ExactShort
import Verif.Prop.Parameters
import Verif.Prop.OneDigit
import Verif.Proof.OneDigitRead
import Verif.Prop.OneDigitRead
import Verif.Prop.DropIn
import Verif.Prop.DropInRange
import Verif.Prop.SizeT
import Verif.Prop.StringAlloc
import Verif.Prop.Alike
import Verif.Prop.MachineInt
import Verif.Prop.CharType
import Verif.Prop.Interop
import Verif.Prop.DropInZero
import Verif.Prop.Efficiency
import Verif.Prop.Ask
import Verif.Prop.Survive
import Verif.Prop.Away
import Verif.Prop.ReadList
import Verif.Prop.ReadItems
import Verif.Prop.Flush
import Verif.Prop.DoubleRounding
import Verif.Prop.Indeterminate
import Verif.Prop.Stream
