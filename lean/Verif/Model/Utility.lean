import Verif.Model.Creation
import Verif.Model.Matmul
import Verif.Model.Copy
import Verif.Model.Elementwise
import Verif.Model.Iter
/-!
# Model: `dev_utilities`

`rstsr-core/src/dev_utilities/mod.rs`.
-/
namespace Rstsr
open Spec

/-- `dev_utilities/mod.rs:48-67` `fingerprint`, without the last call `to_scalar`: the product of the flattened tensor and
`range.cos()`. `linspace` starts at zero and ends before the number of elements. `reshape(-1)` works in the order of the
device (`manipulation/reshape.rs`). Exact arithmetic; `cos` is any function; `par` and `fresh` as in `Tensor.matmul`. -/
def Tensor.fingerprintWork {K : Type} [Field K] (cos : K → K) (dev : Order) (par : Option MatPar) (fresh : Nat → K)
    (a : Tensor K) : Res (Tensor K × Work K) := do
  let range := Tensor.ofList (linspaceSerial 0 (a.layout.size : K) a.layout.size false)
  let c ← Tensor.changeContig dev a .C
  let v ← Tensor.changeShape c [-1] dev none
  let w ← Tensor.map dev range cos
  v.matmul ⟨(· * ·), (· * ·), (· + ·), 0⟩ (· * ·) dev par fresh w 1

/-- `dev_utilities/mod.rs:31-38`: the loop over pairs of positions. -/
def closeLoop {α : Type} (close : α → α → Bool) (a b : List α) : List (Nat × Nat) → Res Bool
  | [] => .ok true
  | (i, j) :: rest => do
    let va ← readAt a i
    let vb ← readAt b j
    if close va vb then closeLoop close a b rest else .ok false

/-- `dev_utilities/mod.rs:11-40` `allclose_f64`: column-major iteration over the reversed layouts. `close va vb` is line 34,
`(va - vb).abs() <= atol + rtol * vb.abs()`. -/
def Tensor.allcloseSeq {α : Type} (close : α → α → Bool) (a b : Tensor α) : Res Bool := do
  let la := a.layout.reverseAxes
  let lb := b.layout.reverseAxes
  if la.size ≠ lb.size then .ok false
  else
    let ita ← Iter.new .F la
    let itb ← Iter.new .F lb
    let xs ← ita.toList
    let ys ← itb.toList
    closeLoop close a.data b.data (xs.zip ys)

end Rstsr
