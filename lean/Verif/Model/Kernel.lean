import Verif.Model.Iter
/-!
# Model of the serial element-wise kernels (`rstsr-native-impl/src/cpu_serial`)

Storage (`&[T]`, `&mut [T]`) is the list of its cells; a checked slice access outside is the panic error.
A closure argument (`f`) is a pure function of the cell contents. `MaybeUninit<T>` cells are `Option T`:
`none` is uninitialised. Cloning and casting (`into_cast`) are a function `α → γ`.
-/
namespace Rstsr
open Spec (Order)

/-- `a[i]` on a slice. -/
def readAt {α : Type} (a : List α) (i : Nat) : Res α :=
  match a[i]? with
  | some v => .ok v
  | none => .error .panic

/-- `f(&mut c[i])` on a slice: the cell's content is replaced by `f` of it. -/
def modifyAt {γ : Type} (c : List γ) (i : Nat) (f : γ → γ) : Res (List γ) :=
  match c[i]? with
  | some v => .ok (c.set i (f v))
  | none => .error .panic

/-- A `for` loop: one state change after another, stopping at the first failure. -/
def runAll {ι σ : Type} (f : ι → σ → Res σ) : List ι → σ → Res σ
  | [], s => .ok s
  | i :: rest, s => do runAll f rest (← f i s)

/-- All items of `IterLayoutColMajor::new(l)` (`rstsr-common/src/layout/iterator.rs:73-87, 290-297`). -/
def colItems (l : Layout) : Res (List Nat) := do (← Iter.new .F l).toList

/-- `iterator.rs:838-873` `layout_col_major_dim_dispatch_1`. The ranks 0 to 6 only choose the Rust type
of the iterator (rank 0 calls `f(offset)`, which is the single item of the iterator). -/
def dispatch1 {σ : Type} (la : Layout) (f : Nat → σ → Res σ) (s : σ) : Res σ := do
  runAll f (← colItems la) s

/-- `iterator.rs:875-915` `layout_col_major_dim_dispatch_2`; `izip!` stops at the shorter one. -/
def dispatch2 {σ : Type} (la lb : Layout) (f : Nat × Nat → σ → Res σ) (s : σ) : Res σ := do
  if la.ndim ≠ lb.ndim then .error .runtimeError
  else
    let xs ← colItems la
    let ys ← colItems lb
    runAll f (xs.zip ys) s

/-- `iterator.rs:917-961` `layout_col_major_dim_dispatch_3`. -/
def dispatch3 {σ : Type} (la lb lc : Layout) (f : Nat × Nat × Nat → σ → Res σ) (s : σ) : Res σ := do
  if la.ndim ≠ lb.ndim then .error .runtimeError
  else if la.ndim ≠ lc.ndim then .error .runtimeError
  else
    let xs ← colItems la
    let ys ← colItems lb
    let zs ← colItems lc
    runAll f (xs.zip (ys.zip zs)) s

/-- `iterator.rs:963-1031` `layout_col_major_dim_dispatch_2diff`: the two ranks may differ. -/
def dispatch2diff {σ : Type} (la lb : Layout) (f : Nat × Nat → σ → Res σ) (s : σ) : Res σ := do
  let xs ← colItems la
  let ys ← colItems lb
  runAll f (xs.zip ys) s

/-- `assignment.rs:4`, `op_with_func.rs:8` `CONTIG_SWITCH`. -/
def contigSwitch : Nat := 16

section
variable {α β γ : Type}

/-- One element: `f(&mut c[i], &a[j])`. -/
def step2 (a : List α) (f : γ → α → γ) (i j : Nat) (c : List γ) : Res (List γ) := do
  let x ← readAt a j
  modifyAt c i fun v => f v x

/-- One element: `f(&mut c[i], &a[j], &b[k])`. -/
def step3 (a : List α) (b : List β) (f : γ → α → β → γ) (i j k : Nat) (c : List γ) : Res (List γ) := do
  let x ← readAt a j
  let y ← readAt b k
  modifyAt c i fun v => f v x y

/-- `c[i..i+n].iter_mut().zip(a[j..j+n].iter())`: both ranges are checked first. -/
def zipBlock (a : List α) (f : γ → α → γ) (i j n : Nat) (c : List γ) : Res (List γ) :=
  if c.length < i + n ∨ a.length < j + n then .error .panic
  else runAll (fun t c => step2 a f (i + t) (j + t) c) (List.range n) c

/-- `cpu_serial/assignment.rs:28-67` `assign_arbitary_cpu_serial` and its uninitialised and casting
variants. `cast` is the clone (and cast) of a source element, `order` the device order. -/
def assignArbitrary (dflt : Order) (c : List γ) (lc : Layout) (a : List α) (la : Layout) (order : Order)
    (cast : α → γ) : Res (List γ) := do
  let contig := match order with
    | .C => lc.cContig && la.cContig
    | .F => lc.fContig && la.fContig
  if contig then
    if lc.offset < 0 ∨ la.offset < 0 then .error .panic
    else zipBlock a (fun _ x => cast x) lc.offset.toNat la.offset.toNat lc.size c
  else
    let o := match order with
      | .C => IterOrder.C
      | .F => IterOrder.F
    let lc ← lc.toColMajor dflt o
    let la ← la.toColMajor dflt o
    dispatch2diff lc la (fun p c => step2 a (fun _ x => cast x) p.1 p.2 c) c

/-- `cpu_serial/assignment.rs:91-119` `assign_cpu_serial` and its variants. -/
def assign (dflt : Order) (c : List γ) (lc : Layout) (a : List α) (la : Layout) (cast : α → γ) :
    Res (List γ) := do
  let full ← Layout.toColMajorMany dflt [lc, la] .K
  let (contig, n) := Layout.withContig full
  if n ≥ contigSwitch then
    match contig with
    | [lc, la] => dispatch2 lc la (fun p c => zipBlock a (fun _ x => cast x) p.1 p.2 n c) c
    | _ => .error .panic
  else
    match full with
    | [lc, la] => dispatch2 lc la (fun p c => step2 a (fun _ x => cast x) p.1 p.2 c) c
    | _ => .error .panic

/-- `cpu_serial/assignment.rs:121-153` `fill_cpu_serial`, `fill_promote_cpu_serial` (note the strict `>`). -/
def fill (dflt : Order) (c : List γ) (lc : Layout) (v : γ) : Res (List γ) := do
  let l ← lc.toColMajor dflt .G
  let (contig, n) := Layout.withContig [l]
  if n > contigSwitch then
    match contig with
    | [m] => dispatch1 m (fun i c => runAll (fun t c => modifyAt c (i + t) fun _ => v) (List.range n) c) c
    | _ => .error .panic
  else dispatch1 l (fun i c => modifyAt c i fun _ => v) c

/-- `cpu_serial/op_with_func.rs:10-45` `op_mutc_refa_refb_func_cpu_serial`. -/
def opMutcRefaRefb (dflt : Order) (c : List γ) (lc : Layout) (a : List α) (la : Layout) (b : List β)
    (lb : Layout) (f : γ → α → β → γ) : Res (List γ) := do
  let full ← Layout.toColMajorMany dflt [lc, la, lb] .K
  let (contig, n) := Layout.withContig full
  if n ≥ contigSwitch then
    match contig with
    | [lc, la, lb] =>
      dispatch3 lc la lb (fun p c =>
        runAll (fun t c => step3 a b f (p.1 + t) (p.2.1 + t) (p.2.2 + t) c) (List.range n) c) c
    | _ => .error .panic
  else
    match full with
    | [lc, la, lb] => dispatch3 lc la lb (fun p c => step3 a b f p.1 p.2.1 p.2.2 c) c
    | _ => .error .panic

/-- `cpu_serial/op_with_func.rs:115-146` `op_muta_refb_func_cpu_serial`. The functions with a scalar
operand, `op_mutc_refa_numb_func_cpu_serial` (47-79) and `op_mutc_numa_refb_func_cpu_serial` (81-113),
have the same body with the scalar captured in `f`; see `opMutcRefaNumb` and `opMutcNumaRefb`. -/
def opMutaRefb (dflt : Order) (a : List γ) (la : Layout) (b : List α) (lb : Layout) (f : γ → α → γ) :
    Res (List γ) := do
  let full ← Layout.toColMajorMany dflt [la, lb] .K
  let (contig, n) := Layout.withContig full
  if n ≥ contigSwitch then
    match contig with
    | [la, lb] =>
      dispatch2 la lb (fun p c => runAll (fun t c => step2 b f (p.1 + t) (p.2 + t) c) (List.range n) c) a
    | _ => .error .panic
  else
    match full with
    | [la, lb] => dispatch2 la lb (fun p c => step2 b f p.1 p.2 c) a
    | _ => .error .panic

/-- `cpu_serial/op_with_func.rs:47-79` `op_mutc_refa_numb_func_cpu_serial`. -/
def opMutcRefaNumb (dflt : Order) (c : List γ) (lc : Layout) (a : List α) (la : Layout) (b : β)
    (f : γ → α → β → γ) : Res (List γ) :=
  opMutaRefb dflt c lc a la fun v x => f v x b

/-- `cpu_serial/op_with_func.rs:81-113` `op_mutc_numa_refb_func_cpu_serial`. -/
def opMutcNumaRefb (dflt : Order) (c : List γ) (lc : Layout) (a : α) (b : List β) (lb : Layout)
    (f : γ → α → β → γ) : Res (List γ) :=
  opMutaRefb dflt c lc b lb fun v y => f v a y

/-- `cpu_serial/op_with_func.rs:175-199` `op_muta_func_cpu_serial`. -/
def opMuta (dflt : Order) (a : List γ) (la : Layout) (f : γ → γ) : Res (List γ) := do
  let l ← la.toColMajor dflt .G
  let (contig, n) := Layout.withContig [l]
  if n ≥ contigSwitch then
    match contig with
    | [m] => dispatch1 m (fun i c => runAll (fun t c => modifyAt c (i + t) f) (List.range n) c) a
    | _ => .error .panic
  else dispatch1 l (fun i c => modifyAt c i f) a

/-- `cpu_serial/op_with_func.rs:148-173` `op_muta_numb_func_cpu_serial`: the same loops as
`op_muta_func_cpu_serial` with the scalar captured. -/
def opMutaNumb (dflt : Order) (a : List γ) (la : Layout) (b : β) (f : γ → β → γ) : Res (List γ) :=
  opMuta dflt a la fun v => f v b

end
end Rstsr
