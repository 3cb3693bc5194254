/-!
# Specification vocabulary: calling a function that has a state

`f s x` is a call of the function in state `s` with the argument `x`: the next state and the returned value.
-/
namespace Spec

/-- Calls one after the other: the final state and what the calls returned. -/
def callAll {σ α γ : Type} (f : σ → α → σ × γ) : σ → List α → σ × List γ
  | s, [] => (s, [])
  | s, x :: xs =>
    let r := f s x
    let rest := callAll f r.1 xs
    (rest.1, r.2 :: rest.2)

end Spec
