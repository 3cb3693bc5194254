import Verif.Spec.Scalar
/-!
# Model: `log_add_exp`
-/
namespace Rstsr

/-- `rstsr-core/src/device_cpu_serial/operators/op_ternary_common.rs:13`: `(a.exp() + b.exp()).ln()`, after both
arguments have been converted to one floating-point type (`Model/Scalar`). The functions of the type are parameters. -/
def logAddExp {α : Type} (exp ln : α → α) (add : α → α → α) (a b : α) : α := ln (add (exp a) (exp b))

end Rstsr
