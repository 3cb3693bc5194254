import Verif.Model.LebedevTable
import Verif.Model.Linalg
import Mathlib.Analysis.Real.Sqrt
/-!
# Model of Lebedev quadrature (`rstsr-sci-traits/src/integrate/lebedev.rs`)

The elements are real numbers: the rounding of `f64` arithmetic and of the literals is not modelled, and the literals for `sqrt(1/2)` and `sqrt(1/3)` are these
numbers. Memory that has not been written is `none`.
-/
namespace Rstsr

/-- `lebedev.rs:151-191` `lebedev_order_to_degree`. -/
def orderToDegree (n : Nat) : Res Nat :=
  let order := match n with
    | 3 => 6
    | 5 => 14
    | 7 => 26
    | 9 => 38
    | 11 => 50
    | 13 => 74
    | 15 => 86
    | 17 => 110
    | 19 => 146
    | 21 => 170
    | 23 => 194
    | 25 => 230
    | 27 => 266
    | 29 => 302
    | 31 => 350
    | 35 => 434
    | 41 => 590
    | 47 => 770
    | 53 => 974
    | 59 => 1202
    | 65 => 1454
    | 71 => 1730
    | 77 => 2030
    | 83 => 2354
    | 89 => 2702
    | 95 => 3074
    | 101 => 3470
    | 107 => 3890
    | 113 => 4334
    | 119 => 4802
    | 125 => 5294
    | 131 => 5810
    | _ => 0
  if order = 0 then .error .invalidValue else .ok order

/-- `lebedev.rs:195-235` `lebedev_degree_to_order`. -/
def degreeToOrder (n : Nat) : Res Nat :=
  let order := match n with
    | 6 => 3
    | 14 => 5
    | 26 => 7
    | 38 => 9
    | 50 => 11
    | 74 => 13
    | 86 => 15
    | 110 => 17
    | 146 => 19
    | 170 => 21
    | 194 => 23
    | 230 => 25
    | 266 => 27
    | 302 => 29
    | 350 => 31
    | 434 => 35
    | 590 => 41
    | 770 => 47
    | 974 => 53
    | 1202 => 59
    | 1454 => 65
    | 1730 => 71
    | 2030 => 77
    | 2354 => 83
    | 2702 => 89
    | 3074 => 95
    | 3470 => 101
    | 3890 => 107
    | 4334 => 113
    | 4802 => 119
    | 5294 => 125
    | 5810 => 131
    | _ => 0
  if order = 0 then .error .invalidValue else .ok order

/-- `lebedev.rs:251-264`. -/
noncomputable def orbit0 : List ℝ :=
  let a : ℝ := 1
  [a, 0, 0,
   -a, 0, 0,
   0, a, 0,
   0, -a, 0,
   0, 0, a,
   0, 0, -a]

/-- `lebedev.rs:265-285`. -/
noncomputable def orbit1 : List ℝ :=
  let a : ℝ := Real.sqrt (1 / 2)
  [0, a, a,
   0, -a, a,
   0, a, -a,
   0, -a, -a,
   a, 0, a,
   -a, 0, a,
   a, 0, -a,
   -a, 0, -a,
   a, a, 0,
   -a, a, 0,
   a, -a, 0,
   -a, -a, 0]

/-- `lebedev.rs:286-302`. -/
noncomputable def orbit2 : List ℝ :=
  let a : ℝ := Real.sqrt (1 / 3)
  [a, a, a,
   -a, a, a,
   a, -a, a,
   -a, -a, a,
   a, a, -a,
   -a, a, -a,
   a, -a, -a,
   -a, -a, -a]

/-- `lebedev.rs:303-333`. -/
noncomputable def orbit3 (a : ℝ) : List ℝ :=
  let b := Real.sqrt (1 - 2 * a * a)
  [a, a, b,
   -a, a, b,
   a, -a, b,
   -a, -a, b,
   a, a, -b,
   -a, a, -b,
   a, -a, -b,
   -a, -a, -b,
   a, b, a,
   -a, b, a,
   a, -b, a,
   -a, -b, a,
   a, b, -a,
   -a, b, -a,
   a, -b, -a,
   -a, -b, -a,
   b, a, a,
   -b, a, a,
   b, -a, a,
   -b, -a, a,
   b, a, -a,
   -b, a, -a,
   b, -a, -a,
   -b, -a, -a]

/-- `lebedev.rs:334-364`. -/
noncomputable def orbit4 (a : ℝ) : List ℝ :=
  let b := Real.sqrt (1 - a * a)
  [a, b, 0,
   -a, b, 0,
   a, -b, 0,
   -a, -b, 0,
   b, a, 0,
   -b, a, 0,
   b, -a, 0,
   -b, -a, 0,
   a, 0, b,
   -a, 0, b,
   a, 0, -b,
   -a, 0, -b,
   b, 0, a,
   -b, 0, a,
   b, 0, -a,
   -b, 0, -a,
   0, a, b,
   0, -a, b,
   0, a, -b,
   0, -a, -b,
   0, b, a,
   0, -b, a,
   0, b, -a,
   0, -b, -a]

/-- `lebedev.rs:365-419`. -/
noncomputable def orbit5 (a b : ℝ) : List ℝ :=
  let c := Real.sqrt (1 - a * a - b * b)
  [a, b, c,
   -a, b, c,
   a, -b, c,
   -a, -b, c,
   a, b, -c,
   -a, b, -c,
   a, -b, -c,
   -a, -b, -c,
   a, c, b,
   -a, c, b,
   a, -c, b,
   -a, -c, b,
   a, c, -b,
   -a, c, -b,
   a, -c, -b,
   -a, -c, -b,
   b, a, c,
   -b, a, c,
   b, -a, c,
   -b, -a, c,
   b, a, -c,
   -b, a, -c,
   b, -a, -c,
   -b, -a, -c,
   b, c, a,
   -b, c, a,
   b, -c, a,
   -b, -c, a,
   b, c, -a,
   -b, c, -a,
   b, -c, -a,
   -b, -c, -a,
   c, a, b,
   -c, a, b,
   c, -a, b,
   -c, -a, b,
   c, a, -b,
   -c, a, -b,
   c, -a, -b,
   -c, -a, -b,
   c, b, a,
   -c, b, a,
   c, -b, a,
   -c, -b, a,
   c, b, -a,
   -c, b, -a,
   c, -b, -a,
   -c, -b, -a]

/-- `dst[..n].copy_from_slice(src)`: it panics when `dst` is shorter than `n` or `src` has not the length `n`. -/
def copyFront {α : Type} (dst : List (Option α)) (n : Nat) (src : List α) : Res (List (Option α)) :=
  if n ≤ dst.length ∧ src.length = n then .ok (src.map some ++ dst.drop n) else .error .panic

/-- `dst[..n].fill(v)`. -/
def fillFront {α : Type} (dst : List (Option α)) (n : Nat) (v : α) : Res (List (Option α)) :=
  if n ≤ dst.length then .ok (List.replicate n (some v) ++ dst.drop n) else .error .panic

/-- `lebedev.rs:249-422` `lebedev_generate_sph_oh`: it writes to the front of two slices. -/
noncomputable def sphOh (code : Nat) (a b v : ℝ) (quads weights : List (Option ℝ)) :
    Res (List (Option ℝ) × List (Option ℝ)) :=
  match code with
  | 0 => do return (← copyFront quads 18 orbit0, ← fillFront weights 6 v)
  | 1 => do return (← copyFront quads 36 orbit1, ← fillFront weights 12 v)
  | 2 => do return (← copyFront quads 24 orbit2, ← fillFront weights 8 v)
  | 3 => do return (← copyFront quads 72 (orbit3 a), ← fillFront weights 24 v)
  | 4 => do return (← copyFront quads 72 (orbit4 a), ← fillFront weights 24 v)
  | 5 => do return (← copyFront quads 144 (orbit5 a b), ← fillFront weights 48 v)
  | _ => .error .panic

/-- `lebedev.rs:1789-1799` `code_length`. -/
def codeLength : Nat → Res Nat
  | 0 => .ok 6
  | 1 => .ok 12
  | 2 => .ok 8
  | 3 => .ok 24
  | 4 => .ok 24
  | 5 => .ok 48
  | _ => .error .panic

/-- The number a literal denotes. -/
noncomputable def Dec.val (d : Dec) : ℝ := d.mant / 10 ^ d.exp

/-- `&mut buf[i..j]`, handed to a function and written back: it panics when the range is not in the buffer. -/
def onSlice {α β : Type} (buf : List α) (i j : Nat) (f : List α → Res β) : Res β :=
  if i ≤ j ∧ j ≤ buf.length then f ((buf.drop i).take (j - i)) else .error .panic

/-- The loop of `lebedev_make_angular_grid`, `lebedev.rs:1805-1811`. -/
noncomputable def fillGrid : List OrbitRow → Nat → List (Option ℝ) → List (Option ℝ) → Res (List (Option ℝ) × List (Option ℝ))
  | [], _, quads, weights => .ok (quads, weights)
  | o :: rest, index, quads, weights => do
    let len ← codeLength o.code
    let (qs, ws) ← onSlice quads (index * 3) (index * 3 + len * 3) fun qs =>
      onSlice weights index (index + len) fun ws => sphOh o.code o.a.val o.b.val o.v.val qs ws
    fillGrid rest (index + len)
      (quads.take (index * 3) ++ qs ++ quads.drop (index * 3 + len * 3))
      (weights.take index ++ ws ++ weights.drop (index + len))

/-- A vector that is used as if all of it had been written: `none` is a use of memory never written. -/
def allWritten {α : Type} (l : List (Option α)) : Res (List α) :=
  match l.mapM id with
  | some v => .ok v
  | none => .error .panic

/-- `lebedev.rs:433-1814` `lebedev_make_angular_grid`; the allocations do not fail. -/
noncomputable def makeAngularGrid (degree : Nat) : Res (List ℝ × List ℝ) :=
  match gridTable degree with
  | none => .error .panic
  | some rows => do
    let (quads, weights) ← fillGrid rows 0 (List.replicate (degree * 3) none) (List.replicate degree none)
    return (← allWritten quads, ← allWritten weights)

/-- `rstsr-sci-traits/src/integrate/impl_cpu_serial.rs:4-13` and `auto_impl_rayon.rs:4-13` `lebedev_rule_f`; `asarray` of a vector and a layout is
`rstsr-core/src/tensor/asarray.rs:441-454`, and it unwraps (an error is a panic). -/
noncomputable def lebedevRule (n : Nat) : Res (Tensor ℝ × Tensor ℝ) := do
  let degree ← orderToDegree n
  let (quads, weights) ← makeAngularGrid degree
  let ngrids := weights.length
  let quads ← orPanic (Tensor.newF quads (Layout.newCContigFixed [ngrids, 3] 0))
  let weights ← orPanic (Tensor.newF weights (Layout.newCContigFixed [ngrids] 0))
  return (quads, weights)

/-- `lebedev.rs:103-110` `lebedev_rule_from_degree_f`. -/
noncomputable def lebedevRuleFromDegree (degree : Nat) : Res (Tensor ℝ × Tensor ℝ) := do
  let order ← degreeToOrder degree
  lebedevRule order

end Rstsr
