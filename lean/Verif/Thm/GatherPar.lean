import Verif.Proof.GatherPar
import Verif.Thm.Gather
import Verif.Thm.Concat
/-!
# Theorems on gathering functions of the parallel device (C93)

`exec` runs the threads that a function starts and waits for them. `RunsThreads exec`
(`Spec/Concurrent.lean`) says only this about it: threads that never race, never get stuck and always end with
the same storage leave that storage. So these theorems also say that no other threads are started. A scheduler
is any way to divide the loops (`Fits`) that does not divide a loop without iterations (`Lazy`).
-/
namespace Rstsr
open Spec

section
variable {α : Type}

/-- `index_select` on the parallel device returns exactly what the serial device does, the error included,
whether a pool is available or not, for every schedule and every interleaving. -/
theorem C93_index_select_same (dflt dev : Order) (pool : Bool) (s : Scheduler) (hs : s.Fits) (hz : s.Lazy)
    (exec : Proc (Option α) → List (Option α) → Res (List (Option α))) (he : RunsThreads exec)
    (t : Tensor α) (axis : Int) (indices : List Int) (ht : t.WF) :
    t.indexSelectPar dflt dev pool s exec axis indices = t.indexSelect dflt dev axis indices := by
  have hnd : t.layout.ndim = t.layout.shape.length := by simp [Layout.ndim, Layout.shape]
  unfold Tensor.indexSelectPar Tensor.indexSelect
  cases hax : checkAxis axis t.layout.ndim with
  | error e => rfl
  | ok ax =>
    simp only [ok_bind]
    have hlt : ax < t.layout.shape.length := by
      obtain ⟨h1, rfl⟩ := checkAxis_ok.1 hax
      have := normAxis_lt h1
      omega
    cases hids : indices.mapM (Tensor.checkIndex (t.layout.axes.getD ax default).dim) with
    | error e => rfl
    | ok ids =>
      simp only [ok_bind]
      rw [getD_dim] at hids
      by_cases hi : ∀ i ∈ indices, AxisOk (t.layout.shape.getD ax 0) i
      · rw [checkIndices_ok hi] at hids
        cases hids
        by_cases hd : t.layout.shape.getD ax 0 = 0
        · have h0 : indices = [] := by
            cases indices with
            | nil => rfl
            | cons i is =>
              have := hi i List.mem_cons_self
              unfold AxisOk at this
              omega
          subst h0
          have hsh := shape_newContig dev (t.layout.shape.set ax 0)
          have hl : (Layout.newContig dev (t.layout.shape.set ax 0)).ndim = t.layout.shape.length := by
            have := congrArg List.length hsh
            simpa [Layout.ndim, Layout.shape] using this
          have hk : ∀ k : Res (List (Option α)), (if (t.layout.axes.getD ax default).dim ≤ ([] : List Nat).foldl max 0 then
              (.error .indexError : Res (List (Option α))) else k) = .error .indexError := by
            intro k
            rw [if_pos (by rw [getD_dim, hd]; simp)]
          simp only [List.map_nil, List.length_nil]
          unfold indexSelectKernelPar indexSelectKernel
          simp only [hk]
          cases pool with
          | false => rw [if_pos rfl]
          | true => rw [if_neg (by simp)]
        · rw [select_par dflt dev pool hs hz he hlt ht.fit ht.covers (by
            intro i hi'
            obtain ⟨j, hj, rfl⟩ := List.mem_map.1 hi'
            exact normAxis_lt (hi j hj)) hd (by simp [uninit]) some]
      · push Not at hi
        rw [checkIndices_error hi] at hids
        cases hids

/-- `t.index_select(axis, indices)`, `t.take(indices, axis)` on the parallel device, for an axis that is not
empty: the axis gets one entry per index, and entry `k` holds the slice of `t` at `indices[k]`, counted from
the end if negative. Missing for the full claim: the empty index list on an axis of length 0, which is
rejected as on the serial device (`C46_empty_axis_rejected`). -/
theorem C93_index_select_partial (dflt dev : Order) (pool : Bool) (s : Scheduler) (hs : s.Fits) (hz : s.Lazy)
    (exec : Proc (Option α) → List (Option α) → Res (List (Option α))) (he : RunsThreads exec)
    (t : Tensor α) (axis : Int) (indices : List Int) (ht : t.WF)
    (hax : AxisOk t.arr.shape.length axis)
    (hd : t.arr.shape.getD (normAxis t.arr.shape.length axis) 0 ≠ 0)
    (hi : ∀ i ∈ indices, AxisOk (t.arr.shape.getD (normAxis t.arr.shape.length axis) 0) i) :
    ∃ r, t.indexSelectPar dflt dev pool s exec axis indices = .ok r ∧ r.WF ∧
      r.arr.shape = t.arr.shape.set (normAxis t.arr.shape.length axis) indices.length ∧
      ∀ idx, InRange idx r.arr.shape →
        ∃ i, indices[idx.getD (normAxis t.arr.shape.length axis) 0]? = some i ∧
        ∃ x, t.arr.elem (idx.set (normAxis t.arr.shape.length axis)
            (normAxis (t.arr.shape.getD (normAxis t.arr.shape.length axis) 0) i)) = some x ∧
          r.arr.elem idx = some x := by
  rw [C93_index_select_same dflt dev pool s hs hz exec he t axis indices ht]
  exact C46_index_select_partial dflt dev t axis indices ht hax hd hi

/-- `bool_select` on the parallel device returns exactly what the serial device does. -/
theorem C93_bool_select_same (dflt dev : Order) (pool : Bool) (s : Scheduler) (hs : s.Fits) (hz : s.Lazy)
    (exec : Proc (Option α) → List (Option α) → Res (List (Option α))) (he : RunsThreads exec)
    (t : Tensor α) (axis : Int) (mask : List Bool) (ht : t.WF) :
    t.boolSelectPar dflt dev pool s exec axis mask = t.boolSelect dflt dev axis mask :=
  C93_index_select_same dflt dev pool s hs hz exec he t axis _ ht

/-- `concat` on the parallel device returns exactly what the serial device does, the error included. -/
theorem C93_concat_same (dflt dev : Order) (pool : Bool) (s : Scheduler) (hs : s.Fits)
    (exec : Proc (Option α) → List (Option α) → Res (List (Option α))) (he : RunsThreads exec)
    (ts : List (Tensor α)) (axis : Int) (hwf : ∀ t ∈ ts, t.WF) :
    Tensor.concatPar dflt dev pool s exec ts axis = Tensor.concat dflt dev ts axis := by
  cases ts with
  | nil => rfl
  | cons t0 us =>
    have nd : ∀ t : Tensor α, t.layout.ndim = t.layout.shape.length := by intro t; simp [Layout.ndim, Layout.shape]
    simp only [Tensor.concatPar, Tensor.concat]
    split
    · rfl
    · split
      · rfl
      · rename_i h1 h2
        cases h3 : checkAxis axis t0.layout.ndim with
        | error e => rfl
        | ok ax =>
          simp only [ok_bind]
          split
          · rfl
          · rename_i h6
            obtain ⟨h4, h5⟩ := checkAxis_ok.1 h3
            have hlt := normAxis_lt h4
            rw [← h5, nd] at hlt
            simp only [List.any_eq_true, not_exists, not_and, decide_eq_true_eq, not_not] at h2 h6
            have hlen : (t0.layout.shape.eraseIdx ax).length + 1 = t0.layout.shape.length := by
              rw [List.length_eraseIdx_of_lt hlt]; omega
            have hd : ((t0 :: us).map fun t => (t.layout.axes.getD ax default).dim) = (t0 :: us).map (axLen ax) :=
              List.map_congr_left fun t _ => getD_dim _ _
            have hts : ∀ t ∈ t0 :: us, t.WF ∧
                t.layout.shape = (t0.layout.shape.eraseIdx ax).insertIdx ax (axLen ax t) := by
              intro t ht
              refine ⟨hwf t ht, ?_⟩
              rw [← h6 t ht]
              unfold axLen
              rw [insertIdx_eraseIdx_getD (by have := h2 t ht; rw [nd, nd] at this; omega)]
            rw [hd]
            have T := tight_newContig dev ((t0.layout.shape.eraseIdx ax).insertIdx ax (((t0 :: us).map (axLen ax)).sum))
            have hsh := shape_newContig dev ((t0.layout.shape.eraseIdx ax).insertIdx ax (((t0 :: us).map (axLen ax)).sum))
            rw [concatLoop_par dflt pool hs he (by omega) T hsh (t0 :: us) 0 hts (by omega) (by simp [uninit])]

/-- `concat(ts, axis)` on the parallel device: tensors that agree in every other axis are laid one after
another on the axis. -/
theorem C93_concat (dflt dev : Order) (pool : Bool) (s : Scheduler) (hs : s.Fits)
    (exec : Proc (Option α) → List (Option α) → Res (List (Option α))) (he : RunsThreads exec)
    (ts : List (Tensor α)) (axis : Int) (shape : List Nat) (hne : ts ≠ [])
    (hax : AxisOk shape.length axis) (hwf : ∀ t ∈ ts, t.WF)
    (hts : ∀ t ∈ ts, t.arr.shape = shape.set (normAxis shape.length axis) (t.arr.shape.getD (normAxis shape.length axis) 0)) :
    ∃ r, Tensor.concatPar dflt dev pool s exec ts axis = .ok r ∧ r.WF ∧
      r.arr.shape = shape.set (normAxis shape.length axis) ((ts.map fun t => t.arr.shape.getD (normAxis shape.length axis) 0).sum) ∧
      ∀ (p : Nat) (t : Tensor α), ts[p]? = some t → ∀ idx, InRange idx t.arr.shape →
        ∃ x, t.arr.elem idx = some x ∧
          r.arr.elem (idx.set (normAxis shape.length axis)
            (((ts.take p).map fun t => t.arr.shape.getD (normAxis shape.length axis) 0).sum +
              idx.getD (normAxis shape.length axis) 0)) = some x := by
  rw [C93_concat_same dflt dev pool s hs exec he ts axis hwf]
  obtain ⟨r, h1, h2, h3, h4, -⟩ := C47_concat dflt dev ts axis shape hne hax hwf hts
  exact ⟨r, h1, h2, h3, h4⟩

/-- Threads can be run as required. -/
example : ∃ exec : Proc (Option Nat) → List (Option Nat) → Res (List (Option Nat)), RunsThreads exec := by
  classical
  refine ⟨fun p c => if h : ∃ d, Computes p c d then .ok h.choose else .error .panic, ?_⟩
  intro p c d hd _
  have h : ∃ d, Computes p c d := ⟨d, hd⟩
  simp only [dif_pos h]
  rw [hd.result _ (computes_reaches h.choose_spec)]

/-- A scheduler that divides every loop with iterations and leaves the last part whole. -/
example : ∃ s : Scheduler, s.Fits ∧ s.Lazy ∧ ∃ k a b, s 2 3 = .split k a b := by
  refine ⟨fun m _ => if m = 0 then .run fun _ => .run else .split 1 (.run fun _ => .run) (.run fun _ => .run), ?_, ?_, ?_⟩
  · intro m n
    by_cases h : m = 0
    · simp only [h, if_true]; exact fun _ => trivial
    · simp only [h, if_false]; exact ⟨by omega, fun _ => trivial, fun _ => trivial⟩
  · exact fun n => ⟨fun _ => .run, rfl⟩
  · exact ⟨1, _, _, rfl⟩

/-- What the two threads do for rows -1, 0, 0 of a 2×3 view: each fills one row of the result. -/
example : ∃ p : Proc (Option Nat),
    dispatchPar2 ⟨[⟨2, 3⟩], 0⟩ ⟨[⟨2, 3⟩], 1⟩ (fun _ p => selectRowPar [9, 1, 2, 3, 4, 5, 6] 1 [2, 0, 0] some p)
      (fun _ _ => .split 1 (.run fun _ => .run) (.run fun _ => .run)) 3 = .ok p ∧
    (updates p).map (fun u => (u.1, u.2 none)) =
      [(0, some 3), (1, some 1), (2, some 1), (3, some 6), (4, some 4), (5, some 4)] := ⟨_, rfl, rfl⟩

end
end Rstsr
