import Mathlib.Data.Int.Log
import Mathlib.Data.Rat.Floor
import Verif.Model.Gather
import Verif.Model.Elementwise
import Verif.Model.Reshape
/-!
# Model: creating tensors
-/
namespace Rstsr
open Spec

/-! ## Floating point numbers -/

/-- Round a rational number to an integer, ties to even. -/
def roundHalfEven (x : ℚ) : Int :=
  if x - ⌊x⌋ < 1 / 2 then ⌊x⌋
  else if 1 / 2 < x - ⌊x⌋ then ⌊x⌋ + 1
  else if ⌊x⌋ % 2 = 0 then ⌊x⌋ else ⌊x⌋ + 1

/-- The `f64` nearest to a rational number: 53 significant binary digits, ties to even. This is what Rust's
`as f64` and `/` on `f64` compute as long as the result is a normal number, which it always is here: the
operands are integers below `2 ^ 64`. -/
def toF64 (q : ℚ) : ℚ :=
  if q = 0 then 0 else roundHalfEven (q / 2 ^ (Int.log 2 |q| - 52)) * 2 ^ (Int.log 2 |q| - 52)

/-! ## `arange` -/

/-- A primitive integer type: its least and greatest value, and whether `arange` has a fast path for it
(`rstsr-native-impl/src/cpu_serial/creation.rs:104` lists `usize, isize, i32, i64, u32, u64`). -/
structure IntTy where
  lo : Int
  hi : Int
  fast : Bool

def IntTy.i8 : IntTy := ⟨-2 ^ 7, 2 ^ 7 - 1, false⟩
def IntTy.u8 : IntTy := ⟨0, 2 ^ 8 - 1, false⟩
def IntTy.i16 : IntTy := ⟨-2 ^ 15, 2 ^ 15 - 1, false⟩
def IntTy.u16 : IntTy := ⟨0, 2 ^ 16 - 1, false⟩
def IntTy.i32 : IntTy := ⟨-2 ^ 31, 2 ^ 31 - 1, true⟩
def IntTy.u32 : IntTy := ⟨0, 2 ^ 32 - 1, true⟩
def IntTy.i64 : IntTy := ⟨-2 ^ 63, 2 ^ 63 - 1, true⟩
def IntTy.u64 : IntTy := ⟨0, 2 ^ 64 - 1, true⟩
/-- `isize` on a 64-bit machine. -/
def IntTy.isize : IntTy := ⟨-2 ^ 63, 2 ^ 63 - 1, true⟩

/-- `x` is a value of the type. -/
def IntTy.holds (T : IntTy) (x : Int) : Bool := T.lo ≤ x && x ≤ T.hi

/-- The result of an arithmetic operation whose exact value is `x`. Overflow panics in builds with overflow
checks; in builds without (`wrap = true`, the release profile) it wraps around. -/
def IntTy.arith (T : IntTy) (wrap : Bool) (x : Int) : Res Int :=
  if T.holds x then .ok x
  else if wrap then .ok (T.lo + (x - T.lo) % (T.hi - T.lo + 1)) else .error .panic

/-- `cpu_serial/creation.rs:7-19` `arange_by_partial_ord_cpu_serial`. The `while` loop need not end, so it is
given a number of rounds; `none` means that it has not ended within them. `add` is the type's addition. -/
def arangeLoop {K : Type} (less : K → K → Bool) (add : K → K → Res K) (stop step : K) : Nat → K → Option (Res (List K))
  | 0, _ => none
  | rounds + 1, current =>
    if less current stop then
      match add current step with
      | .error e => some (.error e)
      | .ok next => (arangeLoop less add stop step rounds next).map fun r => r.map (current :: ·)
    else some (.ok [])

/-- `cpu_serial/creation.rs:38-47`, 56-64: drop the last value if it lies outside the interval. -/
def dropOutside {K : Type} (down up : K → Bool) (positive negative : Bool) (xs : List K) : List K :=
  if (positive && xs.getLast?.any up) || (negative && xs.getLast?.any down) then xs.dropLast else xs

/-- `cpu_serial/creation.rs:21-48` `arange_by_primitive_isize_cpu_serial` and
`cpu_rayon/creation.rs:8-36` `arange_by_primitive_isize_cpu_rayon` (which maps the same function over the same
indices and collects in order). `none` is Rust's `None`. -/
def arangeIsize (wrap : Bool) (T : IntTy) (start stop step : Int) : Option (Res (List Int)) :=
  if ¬ (IntTy.isize.holds start ∧ IntTy.isize.holds stop ∧ IntTy.isize.holds step) then none
  else
    match IntTy.isize.arith wrap (stop - start) with
    | .error e => some (.error e)
    | .ok d =>
      let n : Int := ⌈toF64 (toF64 d / toF64 step)⌉
      if ¬ IntTy.isize.holds n then none
      else some do
        let xs ← (List.range n.toNat).mapM fun (i : Nat) => do
          let m ← IntTy.isize.arith wrap (i * step)
          let v ← IntTy.isize.arith wrap (start + m)
          if T.holds v then pure v else .error .panic
        pure (dropOutside (fun x => decide (x ≤ stop)) (fun x => decide (stop ≤ x)) (0 < step) (step < 0) xs)

/-- `cpu_serial/creation.rs:73-107` `arange_cpu_serial` and `cpu_rayon/creation.rs:61-101` `arange_cpu_rayon`
for the integer types, with `device_cpu_serial/creation.rs:76-80` `arange_impl` (the zero step is refused). -/
def arangeInt (wrap : Bool) (T : IntTy) (start stop step : Int) (rounds : Nat) : Option (Res (List Int)) :=
  if step = 0 then some (.error .invalidValue)
  else
    let slow := arangeLoop (fun a b => decide (a < b)) (fun a b => T.arith wrap (a + b)) stop step rounds start
    if T.fast then
      match arangeIsize wrap T start stop step with
      | some r => some r
      | none => slow
    else slow

/-- `cpu_serial/creation.rs:50-65` `arange_by_primitive_f64_cpu_serial` (and its rayon twin), with exact
arithmetic in place of floating point. -/
def arangeF64 {K : Type} [Field K] [LinearOrder K] [FloorRing K] (start stop step : K) : Option (List K) :=
  let n : Int := ⌈(stop - start) / step⌉
  if n < 0 ∨ 2 ^ 64 ≤ n then none
  else some (dropOutside (fun x => decide (x ≤ stop)) (fun x => decide (stop ≤ x)) (0 < step) (step < 0)
    ((List.range n.toNat).map fun i : Nat => start + i * step))

/-- `arange_cpu_serial` and `arange_cpu_rayon` for `f64` and `f32`, with exact arithmetic. -/
def arangeExact {K : Type} [Field K] [LinearOrder K] [FloorRing K] (start stop step : K) (rounds : Nat) :
    Option (Res (List K)) :=
  if step = 0 then some (.error .invalidValue)
  else
    match arangeF64 start stop step with
    | some xs => some (.ok xs)
    | none => arangeLoop (fun a b => decide (a < b)) (fun a b => .ok (a + b)) stop step rounds start

/-- `rstsr-core/src/tensor/creation.rs:72-73`, 778-779: the values as a one-dimensional tensor. -/
def Tensor.ofList {α : Type} (xs : List α) : Tensor α := ⟨xs, Layout.newCContig [xs.length] 0⟩

/-- `rstsr-core/src/tensor/creation.rs:68-74` `arange_f`. -/
def Tensor.arange {K : Type} (raw : Nat → Option (Res (List K))) (rounds : Nat) : Option (Res (Tensor K)) :=
  (raw rounds).map fun r => r.map Tensor.ofList

/-! ## `linspace` -/

/-- The step of `linspace` (`device_cpu_serial/creation.rs:103-106`, `cpu_rayon/creation.rs:123-126`). -/
def linspaceStep {K : Type} [Field K] (start stop : K) (n : Nat) (endpoint : Bool) : K :=
  if endpoint then (stop - start) / ((n - 1 : Nat) : K) else (stop - start) / (n : K)

/-- `device_cpu_serial/creation.rs:107-111`: the running sum. -/
def linspaceLoop {K : Type} [Field K] (step : K) : Nat → K → List K
  | 0, _ => []
  | n + 1, v => v :: linspaceLoop step n (v + step)

/-- `device_cpu_serial/creation.rs:88-113` `linspace_impl`, with exact arithmetic. -/
def linspaceSerial {K : Type} [Field K] (start stop : K) (n : Nat) (endpoint : Bool) : List K :=
  if n = 0 then []
  else if n = 1 then [start]
  else linspaceLoop (linspaceStep start stop n endpoint) n start

/-- `cpu_rayon/creation.rs:107-131` `linspace_cpu_rayon`, with exact arithmetic. The parallel map collects its
results in the order of the indices. -/
def linspacePar {K : Type} [Field K] (start stop : K) (n : Nat) (endpoint : Bool) : List K :=
  if n = 0 then []
  else if n = 1 then [start]
  else (List.range n).map fun i : Nat => start + i * linspaceStep start stop n endpoint

/-! ## Constant tensors -/

section
variable {α : Type}

/-- `rstsr-core/src/tensor/creation.rs:1235-1241` `zeros_f` for a layout; `ones_f` and `empty_f` (202-207) are the
same up to the value. -/
def Tensor.constLayout (l : Layout) (v : α) : Res (Tensor α) := do
  let (_, top) ← l.boundsIndex
  pure ⟨List.replicate top.toNat v, l⟩

/-- `creation.rs:544-549` `full_f` for a layout: as many cells as the layout has elements. -/
def Tensor.fullLayout (l : Layout) (v : α) : Res (Tensor α) :=
  pure ⟨List.replicate l.size v, l⟩

/-- `DimLayoutContigAPI::new_contig` (`rstsr-common/src/layout/layoutbase.rs`) for shapes of fixed (`fixed`) and
of dynamic rank. -/
def contigOf (fixed : Bool) (o : Order) (shape : List Nat) : Layout :=
  match fixed, o with
  | true, .C => Layout.newCContigFixed shape 0
  | true, .F => Layout.newFContigFixed shape 0
  | false, .C => Layout.newCContig shape 0
  | false, .F => Layout.newFContig shape 0

/-- `creation.rs:560-580` `full_f` for a shape with an order, or with the device's order. -/
def Tensor.full (fixed : Bool) (o : Order) (shape : List Nat) (v : α) : Res (Tensor α) :=
  Tensor.fullLayout (contigOf fixed o shape) v

/-- `zeros_f`, `ones_f` for a shape (`creation.rs:1243-1275`). -/
def Tensor.const (fixed : Bool) (o : Order) (shape : List Nat) (v : α) : Res (Tensor α) :=
  Tensor.constLayout (contigOf fixed o shape) v

/-- `creation.rs:656-663` `full_like_f` (and `zeros_like_f`, `ones_like_f`). -/
def Tensor.fullLike (dflt : Order) (t : Tensor α) (order : IterOrder) (v : α) : Res (Tensor α) := do
  let l ← t.layout.forArrayCopy dflt order
  pure ⟨List.replicate l.size v, l⟩

/-- `creation.rs:416-426` `eye_f`. In column-major order the two lengths change places. -/
def Tensor.eye (dflt : Order) (m n : Nat) (k : Int) (o : Order) (zero one : α) : Res (Tensor α) := do
  let l := match o with
    | .C => Layout.newCContigFixed [m, n] 0
    | .F => Layout.newFContigFixed [n, m] 0
  let diag ← l.diagonal (some k) (some 0) (some 1)
  let data ← fill dflt (List.replicate l.size zero) diag one
  pure ⟨data, l⟩

end
end Rstsr
