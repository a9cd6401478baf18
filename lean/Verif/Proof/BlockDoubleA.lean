import Verif.Proof.BlockCount

/-! # The counts for `double`, first half -/

namespace Floaxie

open FloatType

set_option maxRecDepth 100000

theorem double_sum_0 : normalSum .double 512 0 = some 2114500688612145 := by decide +kernel
theorem double_sum_512 : normalSum .double 512 512 = some 2084845598374300 := by decide +kernel

end Floaxie
