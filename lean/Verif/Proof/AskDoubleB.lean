import Verif.Proof.AskCount

/-! # The shares for `double`, second half -/

namespace Floaxie

open FloatType

set_option maxRecDepth 100000

theorem ask_double_300 : askCheck .double 150 320 = true := by decide +kernel
theorem ask_double_450 : askCheck .double 165 470 = true := by decide +kernel

end Floaxie
