import Verif.Proof.LebedevCheck

/-! # The checks of the tables, part 1 -/

namespace Rstsr

theorem check5810 : checkRule grid5810 5810 65 = true := by decide +kernel

end Rstsr
