import Verif.Proof.LebedevSum
import Verif.Proof.LebedevRun1
import Verif.Proof.LebedevRun2
import Verif.Proof.LebedevRun3
import Verif.Proof.LebedevRun4
import Verif.Proof.Distance

/-!
# Lebedev quadrature: the vectors and tensors that are made
-/

namespace Rstsr
open Spec (InRange)

theorem sphOh_ok (o : OrbitRow) (hc : o.code ≤ 5) (q w : List (Option ℝ)) (hq : q.length = 3 * codeLen o.code)
    (hw : w.length = codeLen o.code) :
    codeLength o.code = .ok (codeLen o.code) ∧
      sphOh o.code o.a.val o.b.val o.v.val q w = .ok ((rowPts o).map some, (rowWts o).map some) := by
  have hl := rowPts_length o
  obtain ⟨c, a, b, v⟩ := o
  simp only at *
  rcases c with _ | _ | _ | _ | _ | _ | n
  all_goals first | omega | skip
  all_goals
    refine ⟨rfl, ?_⟩
    simp only [codeLen, Nat.reduceMul, rowPts, Nat.zero_add, Nat.reduceAdd] at hq hw hl
    simp only [sphOh, copyFront, fillFront, rowPts, rowWts, codeLen, Nat.zero_add, Nat.reduceAdd]
    rw [if_pos ⟨by omega, hl⟩, if_pos (by omega), List.drop_of_length_le (by omega), List.drop_of_length_le (by omega)]
    simp only [ok_bind, List.append_nil, List.map_replicate]
    rfl

theorem fillGrid_ok (rows : List OrbitRow) (hr : ∀ o ∈ rows, o.code ≤ 5) (index : Nat) (Q W : List (Option ℝ))
    (hQ : Q.length = index * 3) (hW : W.length = index) :
    fillGrid rows index (Q ++ List.replicate (countPts rows * 3) none) (W ++ List.replicate (countPts rows) none) =
      .ok (Q ++ (allPts rows).map some, W ++ (allWts rows).map some) := by
  induction rows generalizing index Q W with
  | nil => simp [fillGrid, countPts, allPts, allWts]
  | cons o rest ih =>
    have hc := hr o List.mem_cons_self
    simp only [fillGrid, countPts, Nat.add_eq]
    have el : (codeLen o.code + countPts rest) * 3 = codeLen o.code * 3 + countPts rest * 3 := by ring
    have s1 : ((Q ++ List.replicate ((codeLen o.code + countPts rest) * 3) (none : Option ℝ)).drop (index * 3)).take
        (index * 3 + codeLen o.code * 3 - index * 3) = List.replicate (codeLen o.code * 3) none := by
      rw [List.drop_append_of_le_length (by omega), List.drop_of_length_le (by omega), List.nil_append, List.take_replicate]
      congr 1; omega
    have s2 : ((W ++ List.replicate (codeLen o.code + countPts rest) (none : Option ℝ)).drop index).take
        (index + codeLen o.code - index) = List.replicate (codeLen o.code) none := by
      rw [List.drop_append_of_le_length (by omega), List.drop_of_length_le (by omega), List.nil_append, List.take_replicate]
      congr 1; omega
    obtain ⟨k1, k2⟩ := sphOh_ok o hc (List.replicate (codeLen o.code * 3) none) (List.replicate (codeLen o.code) none)
      (by simp [Nat.mul_comm]) (by simp)
    rw [k1, ok_bind]
    unfold onSlice
    rw [if_pos ⟨by omega, by simp only [List.length_append, List.length_replicate]; omega⟩]
    simp only
    rw [if_pos ⟨by omega, by simp only [List.length_append, List.length_replicate]; omega⟩, s1, s2, k2]
    simp only [ok_bind]
    have d1 : (Q ++ List.replicate ((codeLen o.code + countPts rest) * 3) (none : Option ℝ)).drop (index * 3 + codeLen o.code * 3) =
        List.replicate (countPts rest * 3) none := by
      rw [← hQ, List.drop_append, List.drop_of_length_le (by omega), List.nil_append, List.drop_replicate]
      congr 1; omega
    have d2 : (W ++ List.replicate (codeLen o.code + countPts rest) (none : Option ℝ)).drop (index + codeLen o.code) =
        List.replicate (countPts rest) none := by
      rw [← hW, List.drop_append, List.drop_of_length_le (by omega), List.nil_append, List.drop_replicate]
      congr 1; omega
    rw [d1, d2, List.take_append_of_le_length (by omega), List.take_of_length_le (by omega),
      List.take_append_of_le_length (by omega), List.take_of_length_le (by omega)]
    rw [ih (fun o ho => hr o (List.mem_cons_of_mem _ ho)) (index + codeLen o.code) (Q ++ (rowPts o).map some)
      (W ++ (rowWts o).map some) (by simp [hQ, rowPts_length]; ring) (by simp [hW, rowWts])]
    simp [allPts, allWts]

theorem allWritten_map {α : Type} (l : List α) : allWritten (l.map some) = .ok l := by
  unfold allWritten
  have : (l.map some).mapM id = some l := by
    induction l with
    | nil => rfl
    | cons a l ih => simp [List.mapM_cons, ih]
  rw [this]

theorem makeGrid_ok {d n : Nat} {rows : List OrbitRow} (ht : gridTable d = some rows) (h : GridOk rows d n) :
    makeAngularGrid d = .ok (allPts rows, allWts rows) := by
  have e := fillGrid_ok rows (fun o ho => (h.codes o ho).code) 0 [] [] rfl rfl
  rw [h.count] at e
  unfold makeAngularGrid
  rw [ht]
  simp only
  simp only [List.nil_append] at e
  rw [e]
  simp only [ok_bind, allWritten_map]
  rfl

theorem wsum_range (f : ℝ → ℝ → ℝ → ℝ) : ∀ (w q : List ℝ), q.length = 3 * w.length →
    wsum f q w = Spec.weightedSum w.length (fun i c => q.getD (i * 3 + c) 0) (fun i => w.getD i 0) f := by
  intro w
  unfold Spec.weightedSum
  induction w with
  | nil => intro q _; simp [wsum]
  | cons a w ih =>
    intro q h
    match q, h with
    | x :: y :: z :: q, h =>
      simp only [wsum, List.length_cons]
      rw [Finset.sum_range_succ', ih q (by simp at h; omega), add_comm]
      congr 1
      refine Finset.sum_congr rfl fun k _ => ?_
      simp only [show ∀ c, (k + 1) * 3 + c = k * 3 + c + 3 by intro c; ring, List.getD_cons_succ, Nat.add_zero]
    | [], h => simp at h
    | [_], h => simp at h; omega
    | [_, _], h => simp at h; omega

theorem onSphere_get : ∀ (q : List ℝ), OnSphere q → ∀ i, i * 3 + 2 < q.length →
    q.getD (i * 3 + 0) 0 ^ 2 + q.getD (i * 3 + 1) 0 ^ 2 + q.getD (i * 3 + 2) 0 ^ 2 = 1 := by
  intro q h i hi
  induction i generalizing q with
  | zero =>
    match q, h with
    | x :: y :: z :: q, h => simpa using h.1
    | [], _ => simp at hi
    | [_], _ => simp at hi
    | [_, _], _ => simp at hi
  | succ i ih =>
    match q, h with
    | x :: y :: z :: q, h =>
      have := ih q h.2 (by simp at hi; omega)
      rw [show (i + 1) * 3 + 0 = i * 3 + 0 + 3 by ring, show (i + 1) * 3 + 1 = i * 3 + 1 + 3 by ring,
        show (i + 1) * 3 + 2 = i * 3 + 2 + 3 by ring]
      simpa using this
    | [], _ => simp at hi
    | [_], _ => simp at hi
    | [_, _], _ => simp at hi

/-- A vector and a matrix of three columns in row-major order. -/
theorem grid_tensors {d : Nat} (hd : 0 < d) (q w : List ℝ) (hq : q.length = 3 * d) (hw : w.length = d) :
    ∃ Q W : Tensor ℝ, orPanic (Tensor.newF q (Layout.newCContigFixed [d, 3] 0)) = .ok Q ∧
      orPanic (Tensor.newF w (Layout.newCContigFixed [d] 0)) = .ok W ∧ Q.WF ∧ W.WF ∧
      Q.layout = Layout.newCContig [d, 3] 0 ∧ W.layout = Layout.newCContig [d] 0 ∧ Q.data = q ∧ W.data = w ∧
      (∀ i < d, ∀ c < 3, Q.arr.elem [i, c] = some (q.getD (i * 3 + c) 0)) ∧ (∀ i < d, W.arr.elem [i] = some (w.getD i 0)) := by
  have e1 : Layout.newCContigFixed [d, 3] 0 = Layout.newCContig [d, 3] 0 := (C05_fixed_eq_dynamic [d, 3] 0 (by simp; omega)).1
  have e2 : Layout.newCContigFixed [d] 0 = Layout.newCContig [d] 0 := (C05_fixed_eq_dynamic [d] 0 (by simp; omega)).1
  have t1 := tight_newC [d, 3]
  have t2 := tight_newC [d]
  have z1 : (Layout.newCContig [d, 3] 0).size = d * 3 := by simp [Layout.size, shape_newCContig]
  have z2 : (Layout.newCContig [d] 0).size = d := by simp [Layout.size, shape_newCContig]
  rw [z1] at t1
  rw [z2] at t2
  have w1 := t1.wf (d := q) (by omega)
  have w2 := t2.wf (d := w) hw
  refine ⟨⟨q, Layout.newCContig [d, 3] 0⟩, ⟨w, Layout.newCContig [d] 0⟩, ?_, ?_, w1, w2, rfl, rfl, rfl, rfl, ?_, ?_⟩
  · rw [e1, w1.2]; rfl
  · rw [e2, w2.2]; rfl
  · intro i hi c hc
    have hr : InRange [i, c] (Layout.newCContig [d, 3] 0).shape := by
      rw [shape_newCContig]; exact inRange2.2 ⟨hi, hc⟩
    rw [elem_pos t1.fit hr]
    have hp : (Layout.newCContig [d, 3] 0).pos [i, c] = i * 3 + c := by
      unfold Layout.pos
      rw [addr_newCContig (by rfl)]
      simp [Spec.rankC, Spec.rankF]
      try omega
    rw [hp, List.getElem?_eq_getElem (by omega)]
    simp [List.getD_eq_getElem?_getD, List.getElem?_eq_getElem (show i * 3 + c < q.length by omega)]
  · intro i hi
    have hr : InRange [i] (Layout.newCContig [d] 0).shape := by
      rw [shape_newCContig]; simpa [InRange] using hi
    rw [elem_pos t2.fit hr]
    have hp : (Layout.newCContig [d] 0).pos [i] = i := by
      unfold Layout.pos
      rw [addr_newCContig (by rfl)]
      simp [Spec.rankC, Spec.rankF]
    rw [hp, List.getElem?_eq_getElem (by omega)]
    simp [List.getD_eq_getElem?_getD, List.getElem?_eq_getElem (show i < w.length by omega)]

end Rstsr
