import Verif.Model.LebedevTable

/-!
# A check of a table in whole numbers

The squares of the coordinates of all points are whole numbers in units of
`1 / (6 * 10^44)`, so the weighted sum of an even monomial is a whole number in
a suitable unit.  The kernel evaluates the check for each table; that it
decides what it should is proved in `Proof/Lebedev.lean`.  The arithmetic is
written with the functions the kernel evaluates directly.
-/

namespace Rstsr

/-- The squares of the coordinates of the first point of an orbit, and the
weight of the orbit as a difference. -/
structure SqRow where
  wp : Nat
  wn : Nat
  p : Nat
  q : Nat
  r : Nat

/-- `10^44`, the square of the unit of the literals. -/
def one44 : Nat := 100000000000000000000000000000000000000000000

def Dec.units (d : Dec) : Nat := Nat.mul d.mant.toNat (Nat.pow 10 (Nat.sub 22 d.exp))
def Dec.negUnits (d : Dec) : Nat := Nat.mul (-d.mant).toNat (Nat.pow 10 (Nat.sub 22 d.exp))
def Dec.sq (d : Dec) : Nat := Nat.mul d.units d.units

def sqRow (o : OrbitRow) : SqRow :=
  match o.code with
  | 0 => ⟨Nat.mul 6 o.v.units, Nat.mul 6 o.v.negUnits, Nat.mul 6 one44, 0, 0⟩
  | 1 => ⟨Nat.mul 12 o.v.units, Nat.mul 12 o.v.negUnits, Nat.mul 3 one44, Nat.mul 3 one44, 0⟩
  | 2 => ⟨Nat.mul 8 o.v.units, Nat.mul 8 o.v.negUnits, Nat.mul 2 one44, Nat.mul 2 one44, Nat.mul 2 one44⟩
  | 3 => ⟨Nat.mul 24 o.v.units, Nat.mul 24 o.v.negUnits, Nat.mul 6 o.a.sq, Nat.mul 6 o.a.sq,
      Nat.mul 6 (Nat.sub one44 (Nat.mul 2 o.a.sq))⟩
  | 4 => ⟨Nat.mul 24 o.v.units, Nat.mul 24 o.v.negUnits, Nat.mul 6 o.a.sq, Nat.mul 6 (Nat.sub one44 o.a.sq), 0⟩
  | _ => ⟨Nat.mul 48 o.v.units, Nat.mul 48 o.v.negUnits, Nat.mul 6 o.a.sq, Nat.mul 6 o.b.sq,
      Nat.mul 6 (Nat.sub one44 (Nat.add o.a.sq o.b.sq))⟩

/-- The literals fit the unit, the coordinates are not negative and the
square roots are of numbers that are not negative. -/
def rowOk (o : OrbitRow) : Bool :=
  Nat.ble o.a.exp 22 && Nat.ble o.b.exp 22 && Nat.ble o.v.exp 22 && decide (0 ≤ o.a.mant) && decide (0 ≤ o.b.mant) &&
  match o.code with
  | 0 => true
  | 1 => true
  | 2 => true
  | 3 => Nat.ble (Nat.mul 2 o.a.sq) one44
  | 4 => Nat.ble o.a.sq one44
  | 5 => Nat.ble (Nat.add o.a.sq o.b.sq) one44
  | _ => false

/-- The sum of `p^i q^j r^k` over the six orders of `p`, `q`, `r`, where `j`
and `k` are given by what they exceed `i`. -/
def symSum (p q r i j k : Nat) : Nat :=
  Nat.mul (Nat.pow (Nat.mul p (Nat.mul q r)) i)
    (Nat.add (Nat.mul (Nat.pow p j) (Nat.add (Nat.pow q k) (Nat.pow r k)))
      (Nat.add (Nat.mul (Nat.pow q j) (Nat.add (Nat.pow p k) (Nat.pow r k)))
        (Nat.mul (Nat.pow r j) (Nat.add (Nat.pow p k) (Nat.pow q k)))))

def topSum (w : SqRow → Nat) (i j k : Nat) : List SqRow → Nat
  | [] => 0
  | s :: rest => Nat.add (Nat.mul (w s) (symSum s.p s.q s.r i j k)) (topSum w i j k rest)

/-- `1 · 3 · 5 · … · (2n-1)`. -/
def oddFact : Nat → Nat
  | 0 => 1
  | n + 1 => Nat.mul (Nat.succ (Nat.mul 2 n)) (oddFact n)

/-- `10^15 |x - x' - y| ≤ 4 y`. -/
def closeTo (x x' y : Nat) : Bool :=
  Nat.ble (Nat.mul 1000000000000000 x) (Nat.add (Nat.mul 1000000000000000 x') (Nat.mul 1000000000000004 y)) &&
  Nat.ble (Nat.add (Nat.mul 1000000000000000 x') (Nat.mul 999999999999996 y)) (Nat.mul 1000000000000000 x)

def checkOne (rows : List SqRow) (m i j k : Nat) : Bool :=
  closeTo (Nat.mul (topSum SqRow.wp i (Nat.sub j i) (Nat.sub k i) rows) (oddFact (Nat.succ m)))
    (Nat.mul (topSum SqRow.wn i (Nat.sub j i) (Nat.sub k i) rows) (oddFact (Nat.succ m)))
    (Nat.mul (Nat.mul 60000000000000000000000 (Nat.pow (Nat.mul 6 one44) m))
      (Nat.mul (oddFact i) (Nat.mul (oddFact j) (oddFact k))))

/-- All `i ≤ j ≤ k` with `i + j + k = m`. -/
def checkJ (rows : List SqRow) (m i : Nat) : Nat → Bool
  | 0 => true
  | j + 1 =>
    (bif Nat.ble i j && Nat.ble (Nat.add i (Nat.add j j)) m then checkOne rows m i j (Nat.sub m (Nat.add i j)) else true) &&
      checkJ rows m i j
def checkI (rows : List SqRow) (m : Nat) : Nat → Bool
  | 0 => true
  | i + 1 => checkJ rows m i (m + 1) && checkI rows m i

/-- The number of points of the orbits. -/
def codeLen : Nat → Nat
  | 0 => 6
  | 1 => 12
  | 2 => 8
  | 3 => 24
  | 4 => 24
  | _ => 48

def countPts : List OrbitRow → Nat
  | [] => 0
  | o :: rest => Nat.add (codeLen o.code) (countPts rest)

/-- The table has the number of points `d` and integrates the even monomials of degree `2 m`. -/
def checkRule (rows : List OrbitRow) (d m : Nat) : Bool :=
  rows.all rowOk && Nat.beq (countPts rows) d && checkI (rows.map sqRow) m (m + 1)

end Rstsr
