import Verif.Proof.BlockCount

/-! # The counts for `double`, second half, and for `float` -/

namespace Floaxie

open FloatType

set_option maxRecDepth 100000

theorem double_sum_1024 : normalSum .double 512 1024 = some 4452722667685380 := by decide +kernel
theorem double_sum_1536 : normalSum .double 510 1536 = some 2108085170353663 := by decide +kernel
theorem float_sum_0 : normalSum .float 254 0 = some 18736917 := by decide +kernel

end Floaxie
