import Verif.Spec.Multi
import Verif.Spec.Views
import Verif.Spec.Broadcast
import Verif.Spec.Tensor
import Verif.Spec.Reduce
import Verif.Spec.Matmul
/-!
# Specification vocabulary: programs on arrays

A program is a list of statements on a list of arrays. Arrays are plain functions from multi-indices to
elements: there is no storage, no stride and no sharing here. A view call says which shape it gives and
which old index each new index stands for.
-/
namespace Spec
open Rstsr

/-- The view-making calls a program may use. -/
inductive ViewCall where
  | transpose (axes : List Int)
  | reverseAxes
  | swapaxes (axis1 axis2 : Int)
  | slice (ix : List Indexer)
  | flip (axes : List Int)
  | expandDims (axes : List Int)
  | squeeze (axes : List Int)
  | broadcastTo (shape : List Nat)
  | diagonal (k axis1 axis2 : Int)

/-- `c.Gives o s s'`: the call is legal on arrays of shape `s` and its result has shape `s'`. Slices are
those on which rstsr follows Python (`AllPyOk`, see C09). Diagonals above the last row (`d1 ≤ k`) are left
out, see C15. -/
def ViewCall.Gives (o : Order) : ViewCall → List Nat → List Nat → Prop
  | .transpose axes, s, s' =>
    (∀ a ∈ axes, AxisOk s.length a) ∧ (axes.map (normAxis s.length)).Perm (List.range s.length) ∧
    s'.length = s.length ∧ ∀ (k : Nat) (a : Int), axes[k]? = some a → s'[k]? = s[normAxis s.length a]?
  | .reverseAxes, s, s' => s' = s.reverse
  | .swapaxes a b, s, s' =>
    AxisOk s.length a ∧ AxisOk s.length b ∧ s'.length = s.length ∧
    ∀ k < s.length, s'[k]? = s[if k = normAxis s.length a then normAxis s.length b
      else if k = normAxis s.length b then normAxis s.length a else k]?
  | .slice ix, s, s' =>
    ix.count .ellipsis ≤ 1 ∧ usedAxes ix ≤ s.length ∧ Legal (expand ix (s.length - usedAxes ix)) s ∧
    AllPyOk (expand ix (s.length - usedAxes ix)) s ∧ OutShape (expand ix (s.length - usedAxes ix)) s s'
  | .flip axes, s, s' =>
    (∀ a ∈ axes, AxisOk s.length a) ∧ (axes.map (normAxis s.length)).Nodup ∧ s' = s
  | .expandDims axes, s, s' =>
    s'.length = s.length + axes.length ∧ (∀ a ∈ axes, AxisOk s'.length a) ∧
    (axes.map (normAxis s'.length)).Nodup ∧ (∀ a ∈ axes, s'[normAxis s'.length a]? = some 1) ∧
    dropAxes (axes.map (normAxis s'.length)) s' = s
  | .squeeze axes, s, s' =>
    (∀ a ∈ axes, AxisOk s.length a) ∧ (axes.map (normAxis s.length)).Nodup ∧
    (∀ a ∈ axes, s[normAxis s.length a]? = some 1) ∧ s' = dropAxes (axes.map (normAxis s.length)) s
  | .broadcastTo t, s, s' => BroadcastOf o s t t ∧ s' = t
  | .diagonal k a b, s, s' =>
    AxisOk s.length a ∧ AxisOk s.length b ∧ normAxis s.length a ≠ normAxis s.length b ∧
    k < s.getD (normAxis s.length a) 0 ∧
    s' = dropAxes [normAxis s.length a, normAxis s.length b] s ++
      [diagLen (s.getD (normAxis s.length a) 0) (s.getD (normAxis s.length b) 0) k]

/-- `c.At o s s' j i`: index `j` of the result (shape `s'`) stands for index `i` of the array (shape `s`). -/
def ViewCall.At (o : Order) : ViewCall → List Nat → List Nat → List Nat → List Nat → Prop
  | .transpose axes, s, _, j, i => ∀ (k : Nat) (a : Int), axes[k]? = some a → j[k]? = i[normAxis s.length a]?
  | .reverseAxes, _, _, j, i => i = j.reverse
  | .swapaxes a b, s, _, j, i =>
    ∀ k < s.length, j[k]? = i[if k = normAxis s.length a then normAxis s.length b
      else if k = normAxis s.length b then normAxis s.length a else k]?
  | .slice ix, s, _, j, i => i = srcIndex (expand ix (s.length - usedAxes ix)) s j
  | .flip axes, s, _, j, i => i = flipIndex (axes.map (normAxis s.length)) s j
  | .expandDims axes, _, s', j, i => i = dropAxes (axes.map (normAxis s'.length)) j
  | .squeeze axes, s, _, j, i => j = dropAxes (axes.map (normAxis s.length)) i
  | .broadcastTo _, s, _, j, i => i = stretchIndex o s j
  | .diagonal k a b, s, _, j, i => ∃ (r : List Nat) (t : Nat), j = r ++ [t] ∧
    i[normAxis s.length a]? = some (t + max 0 (-k)).toNat ∧
    i[normAxis s.length b]? = some (t + max 0 k).toNat ∧
    dropAxes [normAxis s.length a, normAxis s.length b] i = r

/-- `Path o cs s s' R`: the calls are legal one after the other from shape `s`, each result has an element,
the last shape is `s'`, and index `j` of the last view stands for index `i` of the array when `R j i`. -/
inductive Path (o : Order) : List ViewCall → List Nat → List Nat → (List Nat → List Nat → Prop) → Prop
  | nil (s : List Nat) : Path o [] s s fun j i => i = j
  | cons {c : ViewCall} {cs : List ViewCall} {s m s' : List Nat} {R : List Nat → List Nat → Prop} :
    c.Gives o s m → 0 ∉ m → Path o cs m s' R →
    Path o (c :: cs) s s' fun j i => ∃ k, InRange k m ∧ R j k ∧ c.At o s m k i

/-- `B` is the array `A` seen through the view. -/
def SeenThrough {α : Type} (A : Arr α) (s' : List Nat) (R : List Nat → List Nat → Prop) (B : Arr α) : Prop :=
  B.shape = s' ∧ ∀ j i, InRange j s' → InRange i A.shape → R j i → B.elem j = A.elem i

/-- `A'` is `A` after a write through the view: the elements the view stands for change from `x` to a `y`
with `W j x y`, every other element stays. -/
def WrittenThrough {α : Type} (A A' : Arr α) (s' : List Nat) (R : List Nat → List Nat → Prop)
    (W : List Nat → α → α → Prop) : Prop :=
  A'.shape = A.shape ∧
  (∀ j i, InRange j s' → InRange i A.shape → R j i → ∃ x y, A.elem i = some x ∧ A'.elem i = some y ∧ W j x y) ∧
  ∀ i, InRange i A.shape → (∀ j, InRange j s' → ¬ R j i) → A'.elem i = A.elem i

/-- No two indices of the view stand for the same element. -/
def OneToOne (s' : List Nat) (R : List Nat → List Nat → Prop) : Prop :=
  ∀ j j' i, InRange j s' → InRange j' s' → R j i → R j' i → j = j'

/-- `C` takes, on one axis of `B`, the entries with the listed indices. -/
def IsSelect {α : Type} (axis : Int) (indices : List Int) (B C : Arr α) : Prop :=
  let a := normAxis B.shape.length axis
  AxisOk B.shape.length axis ∧ B.shape.getD a 0 ≠ 0 ∧ (∀ i ∈ indices, AxisOk (B.shape.getD a 0) i) ∧
  C.shape = B.shape.set a indices.length ∧
  ∀ idx, InRange idx C.shape → ∃ i, indices[idx.getD a 0]? = some i ∧
    C.elem idx = B.elem (idx.set a (normAxis (B.shape.getD a 0) i))

/-- `C` is the arrays laid one after the other on one axis. They agree with `shape` on all other axes. -/
def IsConcat {α : Type} (shape : List Nat) (axis : Int) (Bs : List (Arr α)) (C : Arr α) : Prop :=
  let a := normAxis shape.length axis
  Bs ≠ [] ∧ AxisOk shape.length axis ∧ (∀ B ∈ Bs, B.shape = shape.set a (B.shape.getD a 0)) ∧
  C.shape = shape.set a (Bs.map fun B => B.shape.getD a 0).sum ∧
  ∀ (p : Nat) (B : Arr α), Bs[p]? = some B → ∀ idx, InRange idx B.shape →
    C.elem (idx.set a (((Bs.take p).map fun B => B.shape.getD a 0).sum + idx.getD a 0)) = B.elem idx

/-- The statements. `t` and `u` are numbers of arrays in the program's list, `v` and `w` are chains of view
calls applied to them first. -/
inductive Stmt (α : Type) where
  /-- `t.v().fill(x)` -/
  | fill (t : Nat) (v : List ViewCall) (x : α)
  /-- `t.v().mapi(f)` -/
  | mapInplace (f : α → α) (t : Nat) (v : List ViewCall)
  /-- `t.v() op= x` -/
  | opNumber (f : α → α → α) (t : Nat) (v : List ViewCall) (x : α)
  /-- `t.v().assign(u.w())` -/
  | assign (t : Nat) (v : List ViewCall) (u : Nat) (w : List ViewCall)
  /-- `t.v() op= u.w()` -/
  | opAssign (f : α → α → α) (t : Nat) (v : List ViewCall) (u : Nat) (w : List ViewCall)
  /-- `let new = t.v().map(f)` -/
  | map (f : α → α) (t : Nat) (v : List ViewCall)
  /-- `let new = t.v() op u.w()` -/
  | binary (f : α → α → α) (t : Nat) (v : List ViewCall) (u : Nat) (w : List ViewCall)
  /-- `t = t.into_shape(shape)` -/
  | intoShape (t : Nat) (shape : List Nat)
  /-- `let new = t.v().to_shape(shape).into_owned()` -/
  | toShape (t : Nat) (v : List ViewCall) (shape : List Nat)
  /-- `let new = t.v().index_select(axis, indices)` -/
  | select (t : Nat) (v : List ViewCall) (axis : Int) (indices : List Int)
  /-- `let new = concat([t.v(), ..], axis)` -/
  | concat (parts : List (Nat × List ViewCall)) (axis : Int)
  /-- `let new = t.v().sum()` with the zero and the addition of the element type -/
  | sum (zero : α) (add : α → α → α) (t : Nat) (v : List ViewCall)
  /-- `let new = t.v().sum_axes(axes)` -/
  | sumAxes (zero : α) (add : α → α → α) (t : Nat) (v : List ViewCall) (axes : List Int)
  /-- `let new = t.v() % u.w()`, the matrix product, with the arithmetic of the element type. `fresh` is what the
  new storage holds by chance before the product is written; it has no part in the meaning. -/
  | matmul (R : CommSemiring α) (fresh : Nat → α) (t : Nat) (v : List ViewCall) (u : Nat) (w : List ViewCall)

/-- What a statement does to a list of arrays. The source of a write is a different array than its target
(the borrow rules of the language). `op=` through a view needs that the view is one-to-one; operands of a
binary operation that are kept in a new array are one-to-one as well, and so are those of a sum along axes.
Batches of matrices have the same number of axes (C41). -/
inductive StmtDoes {α : Type} (o : Order) : Stmt α → List (Arr α) → List (Arr α) → Prop
  | fill {t v x σ A A' s' R} : σ[t]? = some A → Path o v A.shape s' R →
    WrittenThrough A A' s' R (fun _ _ y => y = x) → StmtDoes o (.fill t v x) σ (σ.set t A')
  | mapInplace {f t v σ A A' s' R} : σ[t]? = some A → Path o v A.shape s' R →
    WrittenThrough A A' s' R (fun _ x y => y = f x) → StmtDoes o (.mapInplace f t v) σ (σ.set t A')
  | opNumber {f t v b σ A A' s' R} : σ[t]? = some A → Path o v A.shape s' R →
    WrittenThrough A A' s' R (fun _ x y => y = f x b) → StmtDoes o (.opNumber f t v b) σ (σ.set t A')
  | assign {t v u w σ A A' s' R U B r' Q} : t ≠ u → σ[t]? = some A → Path o v A.shape s' R →
    σ[u]? = some U → Path o w U.shape r' Q → SeenThrough U r' Q B → BroadcastOf o s' r' s' →
    WrittenThrough A A' s' R (fun j _ y => B.elem (stretchIndex o r' j) = some y) →
    StmtDoes o (.assign t v u w) σ (σ.set t A')
  | opAssign {f t v u w σ A A' s' R U B r' Q} : t ≠ u → σ[t]? = some A → Path o v A.shape s' R → OneToOne s' R →
    σ[u]? = some U → Path o w U.shape r' Q → SeenThrough U r' Q B → BroadcastOf o s' r' s' →
    WrittenThrough A A' s' R (fun j x y => ∃ b, B.elem (stretchIndex o r' j) = some b ∧ y = f x b) →
    StmtDoes o (.opAssign f t v u w) σ (σ.set t A')
  | map {f t v σ A B C s' R} : σ[t]? = some A → Path o v A.shape s' R → SeenThrough A s' R B → IsMap f B C →
    StmtDoes o (.map f t v) σ (σ ++ [C])
  | binary {f t v u w σ A B s' R U D r' Q C} : σ[t]? = some A → Path o v A.shape s' R → OneToOne s' R →
    SeenThrough A s' R B → σ[u]? = some U → Path o w U.shape r' Q → OneToOne r' Q → SeenThrough U r' Q D →
    IsMap2 o f B D C → StmtDoes o (.binary f t v u w) σ (σ ++ [C])
  | intoShape {t shape σ A C} : σ[t]? = some A → C.shape = shape → A.SameSequence o C →
    StmtDoes o (.intoShape t shape) σ (σ.set t C)
  | toShape {t v shape σ A B C s' R} : σ[t]? = some A → Path o v A.shape s' R → OneToOne s' R → SeenThrough A s' R B →
    C.shape = shape → B.SameSequence o C → StmtDoes o (.toShape t v shape) σ (σ ++ [C])
  | select {t v axis indices σ A B C s' R} : σ[t]? = some A → Path o v A.shape s' R → SeenThrough A s' R B →
    IsSelect axis indices B C → StmtDoes o (.select t v axis indices) σ (σ ++ [C])
  | concat {parts axis σ Bs C shape} :
    List.Forall₂ (fun (p : Nat × List ViewCall) B => ∃ A s' R, σ[p.1]? = some A ∧ Path o p.2 A.shape s' R ∧ SeenThrough A s' R B) parts Bs →
    IsConcat shape axis Bs C → StmtDoes o (.concat parts axis) σ (σ ++ [C])
  | sum {zero add t v σ A B C s' R} : (∀ x y z, add (add x y) z = add x (add y z)) → (∀ x y, add x y = add y x) →
    (∀ x, add zero x = x) → σ[t]? = some A → Path o v A.shape s' R → SeenThrough A s' R B →
    C.shape = [] → C.elem [] = some (B.elements.foldl add zero) → StmtDoes o (.sum zero add t v) σ (σ ++ [C])
  | sumAxes {zero add t v axes σ A B C s' R} : (∀ x y z, add (add x y) z = add x (add y z)) → (∀ x y, add x y = add y x) →
    (∀ x, add zero x = x) → σ[t]? = some A → Path o v A.shape s' R → OneToOne s' R → 0 ∉ s' → SeenThrough A s' R B →
    (∀ a ∈ axes, AxisOk s'.length a) → (axes.map (normAxis s'.length)).Nodup →
    B.ReducedTo (some (axes.map (normAxis s'.length))) (fun xs y => y = xs.foldl add zero) C →
    StmtDoes o (.sumAxes zero add t v axes) σ (σ ++ [C])
  | matmul {S : CommSemiring α} {fresh t v u w σ A B s' R U D r' Q C bB bD bC rows cols K} : σ[t]? = some A →
    Path o v A.shape s' R → 0 ∉ s' → SeenThrough A s' R B → σ[u]? = some U → Path o w U.shape r' Q → 0 ∉ r' →
    SeenThrough U r' Q D → MatShapes o s' r' C.shape bB bD bC rows cols K → (bB ≠ [] → bD ≠ [] → bB.length = bD.length) →
    (∀ b i j, InRange b bC → InRange i rows → InRange j cols →
      ∃ e, IsMatEntry o (· * ·) B D bB bD K b i j e ∧ C.elem (glue o b (i ++ j)) = some e) →
    StmtDoes o (.matmul S fresh t v u w) σ (σ ++ [C])

/-- What a program does to a list of arrays. -/
inductive Exec {α : Type} (o : Order) : List (Stmt α) → List (Arr α) → List (Arr α) → Prop
  | nil (σ) : Exec o [] σ σ
  | cons {s p σ τ ρ} : StmtDoes o s σ τ → Exec o p τ ρ → Exec o (s :: p) σ ρ

/-- The statements that refuse to write through a view with shared elements. -/
def Stmt.Refuses {α : Type} : Stmt α → Prop
  | .fill .. => True
  | .assign .. => True
  | _ => False

end Spec
