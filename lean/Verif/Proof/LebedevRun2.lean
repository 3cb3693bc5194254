import Verif.Proof.LebedevCheck

/-! # The checks of the tables, part 2 -/

namespace Rstsr

theorem check5294 : checkRule grid5294 5294 62 = true := by decide +kernel
theorem check4802 : checkRule grid4802 4802 59 = true := by decide +kernel

end Rstsr
