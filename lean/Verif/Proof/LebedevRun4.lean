import Verif.Proof.LebedevCheck

/-! # The checks of the tables, part 4 -/

namespace Rstsr

theorem check6 : checkRule grid6 6 1 = true := by decide +kernel
theorem check14 : checkRule grid14 14 2 = true := by decide +kernel
theorem check26 : checkRule grid26 26 3 = true := by decide +kernel
theorem check38 : checkRule grid38 38 4 = true := by decide +kernel
theorem check50 : checkRule grid50 50 5 = true := by decide +kernel
theorem check74 : checkRule grid74 74 6 = true := by decide +kernel
theorem check86 : checkRule grid86 86 7 = true := by decide +kernel
theorem check110 : checkRule grid110 110 8 = true := by decide +kernel
theorem check146 : checkRule grid146 146 9 = true := by decide +kernel
theorem check170 : checkRule grid170 170 10 = true := by decide +kernel
theorem check194 : checkRule grid194 194 11 = true := by decide +kernel
theorem check230 : checkRule grid230 230 12 = true := by decide +kernel
theorem check266 : checkRule grid266 266 13 = true := by decide +kernel
theorem check302 : checkRule grid302 302 14 = true := by decide +kernel
theorem check350 : checkRule grid350 350 15 = true := by decide +kernel
theorem check434 : checkRule grid434 434 17 = true := by decide +kernel
theorem check590 : checkRule grid590 590 20 = true := by decide +kernel
theorem check770 : checkRule grid770 770 23 = true := by decide +kernel
theorem check974 : checkRule grid974 974 26 = true := by decide +kernel
theorem check1202 : checkRule grid1202 1202 29 = true := by decide +kernel
theorem check1454 : checkRule grid1454 1454 32 = true := by decide +kernel
theorem check1730 : checkRule grid1730 1730 35 = true := by decide +kernel
theorem check2030 : checkRule grid2030 2030 38 = true := by decide +kernel
theorem check2354 : checkRule grid2354 2354 41 = true := by decide +kernel
theorem check2702 : checkRule grid2702 2702 44 = true := by decide +kernel
theorem check3074 : checkRule grid3074 3074 47 = true := by decide +kernel

end Rstsr
