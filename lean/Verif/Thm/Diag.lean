import Verif.Thm.Concat
/-!
# Theorems on `diag` (C55)

`Spec.diagLen` is the length of a diagonal of a matrix; entry `(i, j)` lies on diagonal `j - i`.
-/
namespace Rstsr
open Spec

section
variable {α : Type}

theorem diag_view {l : Layout} (hl : l.Valid) (ho : 0 ≤ l.offset) {d1 d2 : Nat} (hs : l.shape = [d1, d2]) {k : Int}
    (hk : k < 0 ∨ (k < d1 ∧ k ≤ d2) ∨ (d1 ≤ k ∧ d2 ≤ k)) :
    ∃ m, l.diagonal (some k) (some 0) (some 1) = .ok m ∧ Fits [diagLen d1 d2 k] m ∧
      ∀ q < diagLen d1 d2 k, InRange [(q + max 0 (-k)).toNat, (q + max 0 k).toNat] l.shape ∧
        m.addr [q] = l.addr [(q + max 0 (-k)).toNat, (q + max 0 k).toNat] := by
  have hnd : l.ndim = 2 := by
    have := congrArg List.length hs; simpa [Layout.shape, Layout.ndim] using this
  have h0 : normAxis l.ndim ((some (0 : Int)).getD 0) = 0 := by rw [hnd]; rfl
  have h1 : normAxis l.ndim ((some (1 : Int)).getD 1) = 1 := by rw [hnd]; rfl
  have hne : normAxis l.ndim ((some (0 : Int)).getD 0) ≠ normAxis l.ndim ((some (1 : Int)).getD 1) := by rw [h0, h1]; omega
  have hdrop : ∀ i, InRange i l.shape → dropAxes [0, 1] i = [] := by
    intro i hi
    have h2 := hi.length_eq
    rw [hs] at h2
    match i, h2 with
    | [a, b], _ => rfl
  obtain ⟨m, k1, k2⟩ := C15_diagonal_length_partial l hl ho (some k) (some 0) (some 1) (by rw [hnd]; exact ⟨by decide, by decide⟩) (by rw [hnd]; exact ⟨by decide, by decide⟩)
    hne d1 d2 (by rw [h0, hs]; rfl) (by rw [h1, hs]; rfl) hk
  obtain ⟨hv, n, -, -, k3⟩ := C15_diagonal_element l m hl ho (some k) (some 0) (some 1) hne k1
  rw [h0, h1] at k2 k3
  have hsh : m.shape = [diagLen d1 d2 k] := by rw [k2, hs]; rfl
  have hel : ∀ q < diagLen d1 d2 k, InRange [(q + max 0 (-k)).toNat, (q + max 0 k).toNat] l.shape ∧
        m.addr [q] = l.addr [(q + max 0 (-k)).toNat, (q + max 0 k).toNat] := by
    intro q hq
    obtain ⟨i, g1, g2, g3, g4, -⟩ := k3 [] q (by rw [hsh]; exact ⟨hq, trivial⟩)
    have hi : i = [(q + max 0 (-k)).toNat, (q + max 0 k).toNat] := by
      have h2 := g1.length_eq
      rw [hs] at h2
      match i, h2 with
      | [a, b], _ =>
        simp only [List.getElem?_cons_zero, List.getElem?_cons_succ, Option.some.injEq, Option.getD_some] at g3 g4
        rw [g3, g4]
    subst hi
    exact ⟨g1, g2⟩
  refine ⟨m, k1, ⟨hv, ?_, hsh⟩, hel⟩
  intro hz
  obtain ⟨g1, g2⟩ := hel 0 (Nat.pos_of_ne_zero fun e => hz (by rw [e]; simp))
  have h5 := C22_valid_nonNegative l hl ho _ g1
  change 0 ≤ l.addr _ at h5
  rw [← g2, addr_eq] at h5
  have h6 := dot_zeros 1 m.axes
  simp only [List.replicate_one] at h6
  omega

/-- `diag(v, k)` of a vector of length `n`: a square matrix of size `n + |k|` whose `k`-th diagonal is `v`
and whose other entries are the default value. -/
theorem C55_diag_vector (dflt dev : Order) (v : Tensor α) (k : Int) (zero : α) (n : Nat) (hv : v.WF) (hs : v.arr.shape = [n]) :
    ∃ r, v.diag dflt dev k zero = .ok r ∧ r.WF ∧ r.arr.shape = [n + k.natAbs, n + k.natAbs] ∧
      (∀ q < n, ∃ x, v.arr.elem [q] = some x ∧ r.arr.elem [(q + max 0 (-k)).toNat, (q + max 0 k).toNat] = some x) ∧
      ∀ i j, i < n + k.natAbs → j < n + k.natAbs → (j : Int) - i ≠ k → r.arr.elem [i, j] = some zero := by
  have hs : v.layout.shape = [n] := hs
  have hnd : v.layout.ndim = 1 := by
    have := congrArg List.length hs; simpa [Layout.shape, Layout.ndim] using this
  have hsz : v.layout.size = n := by unfold Layout.size; rw [hs]; simp
  have T := tight_newContig dev [n + k.natAbs, n + k.natAbs]
  have hsh := shape_newContig dev [n + k.natAbs, n + k.natAbs]
  generalize hlc : Layout.newContig dev [n + k.natAbs, n + k.natAbs] = lc at *
  obtain ⟨m, k1, k2, k3⟩ := diag_view T.valid T.off hsh (k := k) (by omega)
  have hdl : diagLen (n + k.natAbs) (n + k.natAbs) k = n := by unfold diagLen; split <;> omega
  rw [hdl] at k2 k3
  have posM : ∀ q < n, m.pos [q] = lc.pos [(q + max 0 (-k)).toNat, (q + max 0 k).toNat] :=
    fun q hq => congrArg Int.toNat (k3 q hq).2
  have one : ∀ i, InRange i [n] → ∃ q, q < n ∧ i = [q] := by
    intro i hi
    match i, hi with
    | [q], hi => exact ⟨q, hi.1, rfl⟩
  have hF : Fit [n] v.layout := ⟨hv.fit.valid, hv.1, hs⟩
  obtain ⟨c, g1, g2⟩ := assign_writes dflt k2 hF.fits (c := List.replicate lc.size zero) (a := v.data) (by
      intro i hi
      obtain ⟨q, hq, rfl⟩ := one i hi
      rw [posM q hq, List.length_replicate]
      exact T.lt _ (k3 q hq).1) (by have := hv.covers; rw [hs] at this; exact this) (by
      intro i i' hi hi' e
      obtain ⟨q, hq, rfl⟩ := one i hi
      obtain ⟨q', hq', rfl⟩ := one i' hi'
      rw [posM q hq, posM q' hq'] at e
      have := T.inj _ _ (k3 q hq).1 (k3 q' hq').1 e
      simp only [List.cons.injEq, and_true] at this
      rw [show q = q' by omega]) id
  have hW : (⟨c, lc⟩ : Tensor α).WF := T.wf (by rw [g2.len, List.length_replicate])
  refine ⟨⟨c, lc⟩, ?_, hW, hsh, ?_, ?_⟩
  · unfold Tensor.diag
    rw [if_pos hnd]
    simp only [hsz, hlc, k1, ok_bind, g1]
  · intro q hq
    obtain ⟨x, h1, h2⟩ := hv.get (idx := [q]) (by rw [hs]; exact ⟨hq, trivial⟩)
    refine ⟨x, h2, ?_⟩
    rw [elem_pos T.fit (k3 q hq).1]
    exact g2.set _ _ ⟨[q], ⟨hq, trivial⟩, posM q hq, x, h1, rfl⟩
  · intro i j hi hj hne
    have hin : InRange [i, j] lc.shape := by rw [hsh]; exact ⟨hi, hj, trivial⟩
    rw [elem_pos T.fit hin, g2.keep]
    · rw [List.getElem?_replicate, if_pos (T.lt _ hin)]
    · rintro w ⟨i', hi', e, -⟩
      obtain ⟨q, hq, rfl⟩ := one i' hi'
      rw [posM q hq] at e
      have := T.inj _ _ (k3 q hq).1 hin e
      simp only [List.cons.injEq, and_true] at this
      omega

/-- `diag(a, k)` of a `d1 × d2` matrix is its `k`-th diagonal. Missing for the full claim: super-diagonals
with `d1 ≤ k < d2` or `d2 < k < d1` (see below). -/
theorem C55_diag_matrix_partial (dflt dev : Order) (a : Tensor α) (k : Int) (zero : α) (d1 d2 : Nat) (ha : a.WF)
    (hs : a.arr.shape = [d1, d2]) (hk : k < 0 ∨ (k < d1 ∧ k ≤ d2) ∨ (d1 ≤ k ∧ d2 ≤ k)) :
    ∃ r, a.diag dflt dev k zero = .ok r ∧ r.WF ∧ r.arr.shape = [diagLen d1 d2 k] ∧
      ∀ q < diagLen d1 d2 k, ∃ x, a.arr.elem [(q + max 0 (-k)).toNat, (q + max 0 k).toNat] = some x ∧
        r.arr.elem [q] = some x := by
  have hs : a.layout.shape = [d1, d2] := hs
  have hnd : a.layout.ndim = 2 := by
    have := congrArg List.length hs; simpa [Layout.shape, Layout.ndim] using this
  obtain ⟨m, k1, k2, k3⟩ := diag_view ha.fit.valid ha.1 hs hk
  have hsz : m.size = diagLen d1 d2 k := by unfold Layout.size; rw [k2.shape]; simp
  have T := tight_newContig dev [diagLen d1 d2 k]
  have hsh := shape_newContig dev [diagLen d1 d2 k]
  generalize hlc : Layout.newContig dev [diagLen d1 d2 k] = lc at *
  generalize diagLen d1 d2 k = n at *
  have one : ∀ i, InRange i [n] → ∃ q, q < n ∧ i = [q] := by
    intro i hi
    match i, hi with
    | [q], hi => exact ⟨q, hi.1, rfl⟩
  have hF : Fit [n] lc := ⟨T.valid, T.off, hsh⟩
  have hget : ∀ q < n, ∃ x, a.arr.elem [(q + max 0 (-k)).toNat, (q + max 0 k).toNat] = some x ∧ a.data[m.pos [q]]? = some x := by
    intro q hq
    obtain ⟨x, h1, h2⟩ := ha.get (k3 q hq).1
    refine ⟨x, h2, ?_⟩
    rw [show m.pos [q] = a.layout.pos _ from congrArg Int.toNat (k3 q hq).2]
    exact h1
  obtain ⟨c, g1, g2⟩ := assign_writes dflt hF.fits k2 (c := uninit lc.size) (a := a.data) (by
      intro i hi
      rw [show (uninit (γ := α) lc.size).length = lc.size by simp [uninit]]
      exact T.lt _ (hsh ▸ hi)) (by
      intro i hi
      obtain ⟨q, hq, rfl⟩ := one i hi
      obtain ⟨x, -, h⟩ := hget q hq
      exact (List.getElem?_eq_some_iff.1 h).1) (by
      intro i i' hi hi' e
      exact T.inj _ _ (hsh ▸ hi) (hsh ▸ hi') e) some
  obtain ⟨data, e1, -, -, e4, e5⟩ := fresh_finish T (c := c) (by rw [g2.len]; simp [uninit])
    (fun i x => ∃ q, i = [q] ∧ a.data[m.pos [q]]? = some x) (by
      intro i hi
      rw [hsh] at hi
      obtain ⟨q, hq, rfl⟩ := one i hi
      obtain ⟨x, -, h⟩ := hget q hq
      exact ⟨x, ⟨q, rfl, h⟩, g2.set _ _ ⟨[q], hi, rfl, x, h, rfl⟩⟩)
  refine ⟨⟨data, lc⟩, ?_, e4, hsh, ?_⟩
  · unfold Tensor.diag
    rw [if_neg (by omega), if_pos hnd]
    simp only [k1, ok_bind, hsz, hlc, g1, e1]
  · intro q hq
    obtain ⟨x, h1, h2⟩ := hget q hq
    obtain ⟨y, ⟨q', h3, h4⟩, h5⟩ := e5 [q] (by rw [hsh]; exact ⟨hq, trivial⟩)
    cases h3
    rw [h2] at h4
    cases h4
    exact ⟨x, h1, h5⟩

/-- `diag(diag(v, k), k)` is `v`, for every length and every diagonal. -/
theorem C55_diag_diag (dflt dev : Order) (v : Tensor α) (k : Int) (zero : α) (n : Nat) (hv : v.WF) (hs : v.arr.shape = [n]) :
    ∃ a r, v.diag dflt dev k zero = .ok a ∧ a.diag dflt dev k zero = .ok r ∧ v.arr.Same r.arr := by
  obtain ⟨a, h1, h2, h3, h4, -⟩ := C55_diag_vector dflt dev v k zero n hv hs
  obtain ⟨r, k1, -, k3, k4⟩ := C55_diag_matrix_partial dflt dev a k zero _ _ h2 h3 (by omega)
  have hdl : diagLen (n + k.natAbs) (n + k.natAbs) k = n := by unfold diagLen; split <;> omega
  rw [hdl] at k3 k4
  refine ⟨a, r, h1, k1, by rw [k3, hs], fun idx hi => ?_⟩
  rw [hs] at hi
  match idx, hi with
  | [q], hi =>
    obtain ⟨x, e1, e2⟩ := h4 q hi.1
    obtain ⟨y, f1, f2⟩ := k4 q hi.1
    rw [e2] at f1
    cases f1
    exact ⟨x, e1, f2⟩

/-- Other ranks are refused. -/
theorem C55_diag_rank (dflt dev : Order) (a : Tensor α) (k : Int) (zero : α) (h1 : a.arr.shape.length ≠ 1)
    (h2 : a.arr.shape.length ≠ 2) : a.diag dflt dev k zero = .error .invalidLayout := by
  have nd : a.layout.ndim = a.arr.shape.length := by simp [Layout.ndim, Layout.shape, Tensor.arr]
  unfold Tensor.diag
  rw [if_neg (by omega), if_neg (by omega)]

end

/-- The third super-diagonal of a 2×5 matrix has two entries; `diag` returns none. -/
theorem C55_wide_super_diagonal_lost :
    diagLen 2 5 3 = 2 ∧
    (⟨[0, 1, 2, 3, 4, 5, 6, 7, 8, 9], ⟨[⟨2, 5⟩, ⟨5, 1⟩], 0⟩⟩ : Tensor Int).diag .C .C 3 0 = .ok ⟨[], ⟨[⟨0, 1⟩], 0⟩⟩ :=
  ⟨by decide, rfl⟩

/-- The third super-diagonal of a 5×2 matrix is empty; `diag` panics. -/
theorem C55_tall_super_diagonal_panics :
    diagLen 5 2 3 = 0 ∧
    (⟨[0, 1, 2, 3, 4, 5, 6, 7, 8, 9], ⟨[⟨5, 2⟩, ⟨2, 1⟩], 0⟩⟩ : Tensor Int).diag .C .C 3 0 = .error .panic :=
  ⟨by decide, rfl⟩

example : ∃ r, (⟨[7, 8], ⟨[⟨2, 1⟩], 0⟩⟩ : Tensor Int).diag .C .C (-1) 0 = .ok r ∧ r.layout.shape = [3, 3] ∧
    r.data = [0, 0, 0, 7, 0, 0, 0, 8, 0] := ⟨_, rfl, by decide, rfl⟩
example : ∃ r, (⟨[0, 1, 2, 3, 4, 5], ⟨[⟨2, 3⟩, ⟨3, 1⟩], 0⟩⟩ : Tensor Int).diag .C .C 1 0 = .ok r ∧ r.data = [1, 5] := ⟨_, rfl, rfl⟩
example : (⟨[0, 1, 2, 3, 4, 5], ⟨[⟨2, 3⟩, ⟨3, 1⟩], 0⟩⟩ : Tensor Int).WF := ⟨by decide, rfl⟩

end Rstsr
