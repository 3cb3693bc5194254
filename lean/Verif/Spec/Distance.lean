import Verif.Spec.Tensor
/-!
# Specification vocabulary: distances between rows

Textbook formulas of the metrics of `cdist`, for number types without any laws: sums are taken from left to right,
starting from zero. Nothing here refers to the model.
-/
namespace Spec

/-- The numbers distances are made of. -/
structure Reals (ω : Type) where
  zero : ω
  one : ω
  plus : ω → ω → ω
  minus : ω → ω → ω
  times : ω → ω → ω
  over : ω → ω → ω
  sqrt : ω → ω
  pow : ω → ω → ω
  ln : ω → ω
  max : ω → ω → ω
  infinity : ω
  ofNat : Nat → ω
  isZero : ω → Bool
  /-- less than -/
  lt : ω → ω → Bool
  /-- at most -/
  le : ω → ω → Bool

/-- Elements: real or complex numbers with absolute values in `ω`. -/
structure Elems (α ω : Type) where
  sub : α → α → α
  add : α → α → α
  abs : α → ω
  /-- second power (only for real elements) -/
  square : α → ω
  /-- `!=` -/
  ne : α → α → Bool

variable {α ω : Type}

/-- Sum, from left to right. -/
def Reals.total (R : Reals ω) (xs : List ω) : ω := xs.foldl R.plus R.zero

def Reals.two (R : Reals ω) : ω := R.plus R.one R.one

/-- Names of the metrics on numbers. -/
inductive NumMetric (ω : Type) where
  | euclidean | minkowski (p : ω) | cityBlock | sqEuclidean | canberra | chebyshev | brayCurtis | hamming

/-- Names of the metrics on truth values. -/
inductive BoolMetric where
  | jaccard | yule | dice | rogersTanimoto | russellRao | sokalSneath

/-- Names of the metrics that normalise each row first. -/
inductive RowMetric where
  | cosine | correlation

/-- Distance of two rows of numbers. -/
def numDistance (R : Reals ω) (E : Elems α ω) (M : NumMetric ω) (u v : List α) : ω :=
  let P := u.zip v
  let diff := fun (p : α × α) => E.abs (E.sub p.1 p.2)
  match M with
  | .euclidean => R.sqrt (R.total (P.map fun p => E.square (E.sub p.1 p.2)))
  | .sqEuclidean => R.total (P.map fun p => E.square (E.sub p.1 p.2))
  | .minkowski q => R.pow (R.total (P.map fun p => R.pow (diff p) q)) (R.over R.one q)
  | .cityBlock => R.total (P.map diff)
  | .canberra =>
    let size := fun (p : α × α) => R.plus (E.abs p.1) (E.abs p.2)
    R.total ((P.filter fun p => !R.isZero (size p)).map fun p => R.over (diff p) (size p))
  | .chebyshev => (P.map diff).foldl R.max R.zero
  | .brayCurtis => R.over (R.total (P.map diff)) (R.total (P.map fun p => E.abs (E.add p.1 p.2)))
  | .hamming => R.over (R.total ((P.filter fun p => E.ne p.1 p.2).map fun _ => R.one)) (R.ofNat u.length)

/-- The same with a weight for every column. -/
def numDistanceW (R : Reals ω) (E : Elems α ω) (M : NumMetric ω) (w : List ω) (u v : List α) : ω :=
  let P := (u.zip v).zip w
  let diff := fun (p : (α × α) × ω) => E.abs (E.sub p.1.1 p.1.2)
  match M with
  | .euclidean => R.sqrt (R.total (P.map fun p => R.times p.2 (E.square (E.sub p.1.1 p.1.2))))
  | .sqEuclidean => R.total (P.map fun p => R.times p.2 (E.square (E.sub p.1.1 p.1.2)))
  | .minkowski q => R.pow (R.total (P.map fun p => R.times p.2 (R.pow (diff p) q))) (R.over R.one q)
  | .cityBlock => R.total (P.map fun p => R.times p.2 (diff p))
  | .canberra =>
    let size := fun (p : (α × α) × ω) => R.plus (E.abs p.1.1) (E.abs p.1.2)
    R.total ((P.filter fun p => !R.isZero (size p)).map fun p => R.over (R.times p.2 (diff p)) (size p))
  | .chebyshev => ((P.filter fun p => !R.isZero p.2).map diff).foldl R.max R.zero
  | .brayCurtis => R.over (R.total (P.map fun p => R.times p.2 (diff p)))
      (R.total (P.map fun p => R.times p.2 (E.abs (E.add p.1.1 p.1.2))))
  | .hamming => R.over (R.total ((P.filter fun p => E.ne p.1.1 p.1.2).map Prod.snd)) (R.total w)

/-- The formulas on truth values, from the weight `c` of the columns with a given pair of values and the weight `n` of
all columns. -/
def boolFormula (R : Reals ω) (M : BoolMetric) (c : (Bool × Bool → Bool) → ω) (n : ω) : ω :=
  let both := c fun p => p.1 && p.2
  let neither := c fun p => !p.1 && !p.2
  let first := c fun p => p.1 && !p.2
  let second := c fun p => !p.1 && p.2
  let one := c fun p => p.1 != p.2
  match M with
  | .jaccard => R.over one (c fun p => p.1 || p.2)
  | .yule =>
    let h := R.times second first
    if R.isZero h then R.zero else R.over (R.times R.two h) (R.plus (R.times both neither) h)
  | .dice => R.over one (R.plus (R.times R.two both) one)
  | .rogersTanimoto => R.over (R.times R.two one) (R.plus n one)
  | .russellRao => R.over (R.minus n both) n
  | .sokalSneath => R.over (R.times R.two one) (R.plus (R.times R.two one) both)

/-- Distance of two rows of truth values. -/
def boolDistance (R : Reals ω) (M : BoolMetric) (u v : List Bool) : ω :=
  boolFormula R M (fun q => R.total (((u.zip v).filter q).map fun _ => R.one)) (R.ofNat u.length)

def boolDistanceW (R : Reals ω) (M : BoolMetric) (w : List ω) (u v : List Bool) : ω :=
  boolFormula R M (fun q => R.total ((((u.zip v).zip w).filter fun p => q p.1).map Prod.snd)) (R.total w)

/-- Distance of two rows of numbers that are normalised first. -/
def rowDistance (R : Reals ω) (M : RowMetric) (u v : List ω) : ω :=
  let cosine := fun (u v : List ω) =>
    let norm := fun (x : List ω) => R.sqrt (R.total (x.map fun a => R.times a a))
    R.minus R.one (R.over (R.total ((u.zip v).map fun p => R.times p.1 p.2)) (R.times (norm u) (norm v)))
  let centred := fun (x : List ω) => x.map fun a => R.minus a (R.over (R.total x) (R.ofNat x.length))
  match M with
  | .cosine => cosine u v
  | .correlation => cosine (centred u) (centred v)

/-- Weighted cosine distance. -/
def cosineW (R : Reals ω) (w u v : List ω) : ω :=
  let norm := fun (x : List ω) => R.sqrt (R.total ((x.zip w).map fun p => R.times (R.times p.2 p.1) p.1))
  R.minus R.one (R.over (R.total (((u.zip v).zip w).map fun p => R.times (R.times p.2 p.1.1) p.1.2))
    (R.times (norm u) (norm v)))

/-- Jensen-Shannon distance of two rows without negative entries: each row is divided by its sum, and each entry
that is positive then contributes. -/
def jensenShannon (R : Reals ω) (u v : List ω) : ω :=
  if R.le (R.total u) R.zero && R.le (R.total v) R.zero then R.infinity
  else
    let P := (u.zip v).map fun p => (R.over p.1 (R.total u), R.over p.2 (R.total v))
    let term := fun (x m : ω) => if R.lt R.zero x then [R.times x (R.ln (R.over x m))] else []
    let parts := P.flatMap fun p =>
      let m := R.over (R.plus p.1 p.2) R.two
      term p.1 m ++ term p.2 m
    R.sqrt (R.over (R.total parts) R.two)

/-- `u` is row `i` of the matrix. -/
def IsRow (A : Arr α) (i k : Nat) (u : List α) : Prop := u.length = k ∧ ∀ j < k, A.elem [i, j] = u[j]?

/-- `w` lists the elements of the vector. -/
def IsVector (A : Arr α) (w : List α) : Prop := A.shape = [w.length] ∧ ∀ j < w.length, A.elem [j] = w[j]?

/-- `D` has the distance of every row of `A` from every row of `B`. -/
def IsDistances (f : List α → List α → ω) (A B : Arr α) (D : Arr ω) : Prop :=
  ∃ m n k, A.shape = [m, k] ∧ B.shape = [n, k] ∧ D.shape = [m, n] ∧ ∀ i < m, ∀ j < n,
    ∃ u v, IsRow A i k u ∧ IsRow B j k v ∧ D.elem [i, j] = some (f u v)

/-- Every entry of a row as often as its weight says. -/
def repeated (w : List Nat) (u : List α) : List α := (u.zip w).flatMap fun p => List.replicate p.2 p.1

end Spec
