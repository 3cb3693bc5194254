/-!
# Specification of a setting with scopes

A program in one thread reads a number (`look`), sets it, or runs a part of itself under another number (`within n`). No reference to any library.
-/
namespace Spec

/-- A program that uses a number of threads. `look` is anything that depends on the number: asking for it, or a call of BLAS. `fail` is a panic. -/
inductive ThreadProg where
  | skip
  | look
  | set (n : Nat)
  | seq (a b : ThreadProg)
  | within (n : Nat) (body : ThreadProg)
  | fail
  deriving DecidableEq, Repr

/-- What a program sees, the number it leaves, and whether it returned. -/
structure Seen where
  log : List Nat
  after : Nat
  returned : Bool
  deriving DecidableEq, Repr

/-- The promise: `within n body` runs the body under `n`, and once the body has returned the number is what it was before. -/
def promised : ThreadProg → Nat → Seen
  | .skip, c => ⟨[], c, true⟩
  | .look, c => ⟨[c], c, true⟩
  | .set n, _ => ⟨[], n, true⟩
  | .seq a b, c =>
    let x := promised a c
    if x.returned then let y := promised b x.after; ⟨x.log ++ y.log, y.after, y.returned⟩ else x
  | .within n body, c =>
    let x := promised body n
    ⟨x.log, if x.returned then c else x.after, x.returned⟩
  | .fail, c => ⟨[], c, false⟩

/-- The numbers a program asks for. -/
def ThreadProg.asks : ThreadProg → List Nat
  | .skip => []
  | .look => []
  | .set n => [n]
  | .seq a b => a.asks ++ b.asks
  | .within n body => n :: body.asks
  | .fail => []

/-- The program does not panic. -/
def ThreadProg.Returns : ThreadProg → Prop
  | .skip => True
  | .look => True
  | .set _ => True
  | .seq a b => a.Returns ∧ b.Returns
  | .within _ body => body.Returns
  | .fail => False

/-- The program sets the number only for a part of itself. -/
def ThreadProg.OnlyScopes : ThreadProg → Prop
  | .skip => True
  | .look => True
  | .set _ => False
  | .seq a b => a.OnlyScopes ∧ b.OnlyScopes
  | .within _ body => body.OnlyScopes
  | .fail => True

end Spec
