import Verif.Proof.SurviveCount

/-! # The shares of short decimals, evaluated -/

namespace Floaxie

open FloatType

set_option maxRecDepth 100000

theorem survive_float : surviveOk .float 75 958 = true := by decide +kernel
theorem survive_double_0 : surviveOk .double 200 679 = true := by decide +kernel
theorem survive_double_200 : surviveOk .double 200 879 = true := by decide +kernel
theorem survive_double_400 : surviveOk .double 215 1079 = true := by decide +kernel

end Floaxie
