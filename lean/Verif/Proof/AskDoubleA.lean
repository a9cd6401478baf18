import Verif.Proof.AskCount

/-! # The shares for `double`, first half -/

namespace Floaxie

open FloatType

set_option maxRecDepth 100000

theorem ask_double_0 : askCheck .double 150 20 = true := by decide +kernel
theorem ask_double_150 : askCheck .double 150 170 = true := by decide +kernel
theorem ask_float_0 : askCheck .float 75 5 = true := by decide +kernel

end Floaxie
