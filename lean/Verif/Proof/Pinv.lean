import Verif.Model.Pinv
import Verif.Proof.Svd
import Verif.Thm.Gemm
import Verif.Thm.LinalgLU
import Verif.Spec.Pinv
import Verif.Thm.Elementwise
/-!
# Lemmas for the pseudo-inverse: leading rows and columns of a matrix
-/
namespace Rstsr
open Spec Matrix

section
variable {α ρ : Type}

theorem narrow_upTo {l : Layout} (hl : Accepted l) {a r : Nat} (ha : a < l.ndim) (h : r ≤ (l.axes.getD a default).dim) :
    l.dimNarrow (a : Int) ⟨none, some (r : Int), none⟩ = .ok ⟨l.axes.set a ⟨r, (l.axes.getD a default).str⟩, l.offset⟩ ∧
    Good ⟨l.axes.set a ⟨r, (l.axes.getD a default).str⟩, l.offset⟩ := by
  have g := narrow_good hl (a := a) (n := r) (start := 0) (step := 1) ha (by omega) (by omega)
  simp only [mul_one, mul_zero, add_zero] at g
  refine ⟨?_, g⟩
  have hck : checkAxis (a : Int) l.ndim = .ok a := by
    exact checkAxis_ok.2 ⟨⟨by omega, by omega⟩, (normAxis_ofNat _ _).symm⟩
  unfold Layout.dimNarrow
  rw [hck]
  simp only [ok_bind]
  rw [if_neg (by simp)]
  simp only [Option.getD_none]
  rw [if_neg (by omega)]
  by_cases h0 : (l.axes.getD a default).dim = 0
  · rw [if_pos h0]
    obtain rfl : r = 0 := by omega
    have ha : a < l.axes.length := ha
    congr 1
    have : l.axes.set a ⟨0, (l.axes.getD a default).str⟩ = l.axes := by
      rw [← h0, List.getD_eq_getElem?_getD, List.getElem?_eq_getElem ha]
      exact List.set_getElem_self ha
    rw [this]
  rw [if_neg h0, if_pos (by omega)]
  have e : resolvePos ((l.axes.getD a default).dim : Nat) ⟨none, some (r : Int), none⟩ = (0, (r : Int)) := by
    unfold resolvePos
    simp only [Option.getD_none, Option.getD_some]
    rw [if_neg (by omega), if_neg (by omega), if_neg (by omega), if_neg (by omega)]
  rw [e]
  simp only [mul_one, mul_zero, add_zero, sub_zero]
  rw [show (max (Int.tdiv ((r : Int) + 1 - 1) 1) 0).toNat = r by rw [Int.tdiv_one]; omega]
  exact g.accepted.new

/-- The leading rows and columns of a matrix. -/
theorem corner_ok {t : Tensor α} (ht : t.WF) {m n : Nat} {M : Matrix (Fin m) (Fin n) α} (hM : t.arr.IsMat M) {s0 s1 : Int}
    (hx : t.layout.axes = [⟨m, s0⟩, ⟨n, s1⟩]) {p q : Nat} (hp : p ≤ m) (hq : q ≤ n)
    (hg : Good ⟨[⟨p, s0⟩, ⟨q, s1⟩], t.layout.offset⟩) :
    (⟨t.data, ⟨[⟨p, s0⟩, ⟨q, s1⟩], t.layout.offset⟩⟩ : Tensor α).WF ∧
    (⟨t.data, ⟨[⟨p, s0⟩, ⟨q, s1⟩], t.layout.offset⟩⟩ : Tensor α).arr.IsMat (M.submatrix (Fin.castLE hp) (Fin.castLE hq)) := by
  have ad : ∀ i j, Layout.addr ⟨[⟨p, s0⟩, ⟨q, s1⟩], t.layout.offset⟩ [i, j] = t.layout.addr [i, j] := by
    intro i j
    rw [addr_eq, addr_eq, hx]
    rfl
  have hs : t.layout.shape = [m, n] := by simp [Layout.shape, hx]
  have hw : (⟨t.data, ⟨[⟨p, s0⟩, ⟨q, s1⟩], t.layout.offset⟩⟩ : Tensor α).WF := by
    refine wf_of_sub ht hg ?_ ht.1 ?_
    · intro j hj
      obtain ⟨i, k, rfl, h1, h2⟩ := of_inRange2 hj
      have h1 : i < p := h1
      have h2 : k < q := h2
      exact ⟨[i, k], hs ▸ inRange2.2 ⟨by omega, by omega⟩, ad i k⟩
    · intro _
      obtain ⟨_, _, -, -, h⟩ := WF_bounds ht
      exact h
  refine ⟨hw, rfl, fun i j => ?_⟩
  have := hM.2 (Fin.castLE hp i) (Fin.castLE hq j)
  rw [elem_pos (s := [m, n]) (hM.1 ▸ ht.fit) (inRange2.2 ⟨by simp; omega, by simp; omega⟩)] at this
  rw [elem_pos (s := [p, q]) hw.fit (inRange2.2 ⟨i.2, j.2⟩)]
  simp only [submatrix_apply, ← this, Layout.pos, ad]
  rfl

theorem slice_cols {l : Layout} (hl : l.Valid) {m p r : Nat} {s0 s1 : Int} (h : l.axes = [⟨m, s0⟩, ⟨p, s1⟩]) (hp : r ≤ p) :
    l.dimSlice [Layout.fullSlice, upTo r] = .ok ⟨[⟨m, s0⟩, ⟨r, s1⟩], l.offset⟩ ∧ Good ⟨[⟨m, s0⟩, ⟨r, s1⟩], l.offset⟩ := by
  have hnew : Layout.newAxes l.axes l.offset = .ok l := valid_iff.1 hl
  have hnd : l.ndim = 2 := by simp [Layout.ndim, h]
  obtain ⟨e, g⟩ := narrow_upTo (a := 1) (r := r) (valid_iff.1 hl) (by omega) (by rw [h]; exact hp)
  rw [h] at e g
  refine ⟨?_, g⟩
  unfold Layout.dimSlice
  rw [hnew]
  simp only [ok_bind, Layout.fullSlice, upTo, Layout.countIndexers, hnd, Layout.fillIndexers]
  simp only [le_refl, if_true, Nat.sub_self, zero_add, Nat.reduceAdd, List.reverse_cons, List.reverse_nil, List.nil_append, List.singleton_append, Layout.sliceLoop]
  rw [show (((2 : Nat) : Int) - 1) = ((1 : Nat) : Int) from rfl, e]
  rfl

theorem slice_rows {l : Layout} (hl : l.Valid) {p n r : Nat} {s0 s1 : Int} (h : l.axes = [⟨p, s0⟩, ⟨n, s1⟩]) (hp : r ≤ p) :
    l.dimSlice [upTo r, Layout.fullSlice] = .ok ⟨[⟨r, s0⟩, ⟨n, s1⟩], l.offset⟩ ∧ Good ⟨[⟨r, s0⟩, ⟨n, s1⟩], l.offset⟩ := by
  have hnew : Layout.newAxes l.axes l.offset = .ok l := valid_iff.1 hl
  have hnd : l.ndim = 2 := by simp [Layout.ndim, h]
  obtain ⟨e, g⟩ := narrow_upTo (a := 0) (r := r) (valid_iff.1 hl) (by omega) (by rw [h]; exact hp)
  rw [h] at e g
  refine ⟨?_, g⟩
  have e1 : l.dimNarrow 1 ⟨none, none, none⟩ = .ok l := by
    unfold Layout.dimNarrow
    rw [hnd]
    rfl
  unfold Layout.dimSlice
  rw [hnew]
  simp only [ok_bind, Layout.fullSlice, upTo, Layout.countIndexers, hnd, Layout.fillIndexers]
  simp only [le_refl, if_true, Nat.sub_self, zero_add, Nat.reduceAdd, List.reverse_cons, List.reverse_nil, List.nil_append, List.singleton_append, Layout.sliceLoop]
  rw [show (((2 : Nat) : Int) - 1) = 1 from rfl, e1]
  simp only [ok_bind]
  rw [show ((1 : Int) - 1) = ((0 : Nat) : Int) from rfl, e]
  rfl

theorem slice_row {k r : Nat} (hk : r ≤ k) :
    Layout.dimSlice ⟨[⟨k, 1⟩], 0⟩ [.insert, upTo r] = .ok ⟨[⟨1, 1⟩, ⟨r, 1⟩], 0⟩ := by
  have hv : Layout.Valid ⟨[⟨k, 1⟩], 0⟩ := (freshLayout_tight .C [k]).valid
  have hnew : Layout.newAxes [⟨k, 1⟩] 0 = .ok ⟨[⟨k, 1⟩], 0⟩ := valid_iff.1 hv
  obtain ⟨e, g⟩ := narrow_upTo (l := ⟨[⟨k, 1⟩], 0⟩) (a := 0) (r := r) (valid_iff.1 hv) (by simp [Layout.ndim]) hk
  have hg : Good ⟨[⟨1, 1⟩, ⟨r, 1⟩], 0⟩ := by
    rcases g with h0 | ⟨h0, h1⟩
    · left
      simp [dims] at h0 ⊢
      omega
    · right
      refine ⟨by simp [loSum], ?_⟩
      obtain ⟨L, l1, l2⟩ := h1
      exact ⟨L, by simpa [List.filter, Axis.ess] using l1, l2⟩
  have hins : Layout.dimInsert ⟨[⟨r, 1⟩], 0⟩ 0 = .ok ⟨[⟨1, 1⟩, ⟨r, 1⟩], 0⟩ := by
    unfold Layout.dimInsert
    have : checkAxisInsert 0 1 = .ok 0 := rfl
    simp only [Layout.ndim, List.length_singleton, this, ok_bind]
    have e : ∀ b : Bool, (if b = true then (if (0 : Nat) = 0 then (1 : Int) else 7) else if (0 : Nat) = 1 then 1 else 1) = 1 := by decide
    simp only [if_true, List.getD_cons_zero, ite_self]
    exact hg.accepted
  unfold Layout.dimSlice
  simp only [hnew, ok_bind, upTo, Layout.countIndexers, Layout.ndim, List.length_singleton, Layout.fillIndexers]
  simp only [le_refl, if_true, Nat.sub_self, zero_add, Nat.reduceAdd, List.reverse_cons, List.reverse_nil, List.nil_append, List.singleton_append, Layout.sliceLoop]
  rw [show (((1 : Nat) : Int) - 1) = ((0 : Nat) : Int) from rfl, e]
  simp only [ok_bind]
  rw [show (((0 : Nat) : Int)) = 0 from rfl, show (⟨[⟨k, 1⟩].set 0 ⟨r, ([⟨k, 1⟩].getD 0 default : Axis).str⟩, 0⟩ : Layout) = ⟨[⟨r, 1⟩], 0⟩ from rfl, hins]
  rfl

/-- The leading values as one row. -/
theorem row_ok {k r : Nat} (w : Fin k → ρ) (hk : r ≤ k) :
    (⟨List.ofFn w, ⟨[⟨1, 1⟩, ⟨r, 1⟩], 0⟩⟩ : Tensor ρ).WF ∧ (⟨List.ofFn w, ⟨[⟨1, 1⟩, ⟨r, 1⟩], 0⟩⟩ : Tensor ρ).arr.shape = [1, r] ∧
    ∀ j : Fin r, (⟨List.ofFn w, ⟨[⟨1, 1⟩, ⟨r, 1⟩], 0⟩⟩ : Tensor ρ).arr.elem [0, (j : Nat)] = some (w (Fin.castLE hk j)) := by
  obtain ⟨h1, h2⟩ := valuesOf_ok w
  have e := slice_row hk
  have hv : Layout.Valid ⟨[⟨k, 1⟩], 0⟩ := h1.fit.valid
  have hg : Good ⟨[⟨1, 1⟩, ⟨r, 1⟩], 0⟩ := (keeps_slice _ _ _ h1.good e).1
  have ad : ∀ j, Layout.addr ⟨[⟨1, 1⟩, ⟨r, 1⟩], 0⟩ [0, j] = Layout.addr ⟨[⟨k, 1⟩], 0⟩ [j] := by
    intro j
    rw [addr_eq, addr_eq]
    simp [dot]
  have hw : (⟨List.ofFn w, ⟨[⟨1, 1⟩, ⟨r, 1⟩], 0⟩⟩ : Tensor ρ).WF := by
    refine wf_of_sub h1 hg ?_ (le_refl 0) ?_
    · exact (keeps_slice _ _ _ h1.good e).2
    · intro _
      exact Int.natCast_nonneg _
  refine ⟨hw, rfl, fun j => ?_⟩
  have := h2.2 (Fin.castLE hk j)
  rw [elem_pos (s := [k]) h1.fit (by simp [InRange]; omega)] at this
  rw [elem_pos (s := [1, r]) hw.fit (inRange2.2 ⟨by omega, j.2⟩), ← this]
  simp only [Layout.pos, ad, Fin.val_castLE]
  rfl

/-- Every column divided by its value. -/
theorem scaleCols_ok (dflt : Order) {u : Tensor α} (hu : u.WF) {m r k : Nat} {M : Matrix (Fin m) (Fin r) α} (hM : u.arr.IsMat M)
    (hz : (0 : Int) ∉ u.layout.stride) (w : Fin k → ρ) (hk : r ≤ k) (scale : α → ρ → α) :
    ∃ c, Tensor.assignOp dflt u ⟨List.ofFn w, ⟨[⟨1, 1⟩, ⟨r, 1⟩], 0⟩⟩ scale = .ok c ∧ c.WF ∧ c.layout = u.layout ∧
      c.arr.IsMat (Matrix.of fun i j => scale (M i j) (w (Fin.castLE hk j))) := by
  obtain ⟨h1, h2, h3⟩ := row_ok w hk
  have hb : BroadcastOf dflt u.arr.shape (⟨List.ofFn w, ⟨[⟨1, 1⟩, ⟨r, 1⟩], 0⟩⟩ : Tensor ρ).arr.shape u.arr.shape := by
    rw [hM.1, h2]
    refine ⟨rfl, fun j hj => ?_⟩
    have hj : j = 0 ∨ j = 1 := by simp at hj; omega
    rcases hj with rfl | rfl <;> cases dflt <;> simp [axisAt]
  obtain ⟨c, e1, e2, e3, e4, -⟩ := C32_assign_op dflt u _ scale hu h1 hz hb
  refine ⟨c, e1, e2, e3, ?_, fun i j => ?_⟩
  · show c.layout.shape = _
    rw [e3]; exact hM.1
  · have hs : c.arr.shape = [m, r] := by show c.layout.shape = _; rw [e3]; exact hM.1
    obtain ⟨x, y, x1, y1, z⟩ := e4.2 [(i : Nat), (j : Nat)] (hs ▸ inRange2.2 ⟨i.2, j.2⟩)
    have sx : stretchIndex dflt u.arr.shape [(i : Nat), (j : Nat)] = [(i : Nat), (j : Nat)] := by
      rw [hM.1]
      have := i.2; have := j.2
      have a1 : m = 1 → (i : Nat) = 0 := by omega
      have a2 : r = 1 → (j : Nat) = 0 := by omega
      cases dflt <;> simp [stretchIndex] <;> exact ⟨fun h => (a1 h).symm, fun h => (a2 h).symm⟩
    have sy : stretchIndex dflt (⟨List.ofFn w, ⟨[⟨1, 1⟩, ⟨r, 1⟩], 0⟩⟩ : Tensor ρ).arr.shape [(i : Nat), (j : Nat)] = [0, (j : Nat)] := by
      rw [h2]
      have := j.2
      have a2 : r = 1 → (j : Nat) = 0 := by omega
      cases dflt <;> simp [stretchIndex] <;> exact fun h => (a2 h).symm
    rw [sx, hM.2 i j] at x1
    rw [sy, h3 j] at y1
    injection x1 with x1
    injection y1 with y1
    rw [z, ← x1, ← y1]
    rfl

theorem mutable_owned (dflt : Order) {x : Mutable α} (hx : x.view.WF) {m n : Nat} {M : Matrix (Fin m) (Fin n) α} (hM : x.view.arr.IsMat M) :
    ∃ y, x.intoOwned dflt = .ok y ∧ y.WF ∧ y.arr.IsMat M := by
  cases x with
  | owned t => exact ⟨t, rfl, hx, hM⟩
  | inPlace t =>
    obtain ⟨c, c1, c2, c3, -⟩ := C35_into_owned dflt t hx
    exact ⟨c, c1, c2, isMat_same hM c3⟩
  | toBeCloned t buf => exact ⟨buf, rfl, hx, hM⟩

theorem isMat_map {A : Arr α} {β : Type} {B : Arr β} {f : α → β} {m n : Nat} {M : Matrix (Fin m) (Fin n) α} (h : A.IsMat M) (hm : IsMap f A B) :
    B.IsMat (M.map f) := by
  refine ⟨hm.1.trans h.1, fun i j => ?_⟩
  obtain ⟨x, x1, x2⟩ := hm.2 [(i : Nat), (j : Nat)] (by rw [h.1]; exact inRange2.2 ⟨i.2, j.2⟩)
  rw [h.2 i j] at x1
  injection x1 with x1
  rw [x2, ← x1]
  rfl

/-- How many values come before the first one that is not wanted. -/
theorem takeWhile_spec {p : ρ → Bool} (xs : List ρ) :
    (∀ i (h : i < xs.length), i < (xs.takeWhile p).length → p xs[i] = true) ∧
    ∀ h : (xs.takeWhile p).length < xs.length, p xs[(xs.takeWhile p).length] = false := by
  induction xs with
  | nil => simp
  | cons x xs ih =>
    by_cases hp : p x = true
    · simp only [List.takeWhile_cons, hp, if_true, List.length_cons]
      refine ⟨fun i h h' => ?_, fun h => ?_⟩
      · cases i with
        | zero => exact hp
        | succ i => exact ih.1 i (by omega) (by omega)
      · exact ih.2 (by omega)
    · simp [hp]

end
end Rstsr
