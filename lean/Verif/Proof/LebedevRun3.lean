import Verif.Proof.LebedevCheck

/-! # The checks of the tables, part 3 -/

namespace Rstsr

theorem check4334 : checkRule grid4334 4334 56 = true := by decide +kernel
theorem check3890 : checkRule grid3890 3890 53 = true := by decide +kernel
theorem check3470 : checkRule grid3470 3470 50 = true := by decide +kernel

end Rstsr
