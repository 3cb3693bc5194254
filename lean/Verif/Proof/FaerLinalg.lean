import Verif.Model.FaerLinalg
import Verif.Spec.Faer
import Verif.Thm.Faer
import Verif.Thm.Pinv
import Verif.Thm.Eig
/-!
# Lemmas for the linear algebra functions of the device of `faer`
-/
namespace Rstsr
open Spec Matrix

section
variable {α ρ β : Type}

/-! ## Matrices in storage -/

theorem loadFaer_ok {t : Tensor α} (ht : t.WF) {m n : Nat} {M : Matrix (Fin m) (Fin n) α} (h : t.arr.IsMat M) : loadFaer t m n = .ok M := by
  have hg : ∀ (i : Fin m) (j : Fin n), t.data[(t.layout.addr [(i : Nat), (j : Nat)]).toNat]? = some (M i j) := fun i j => isMat_get ht h i j
  have hf : Fit [m, n] t.layout := h.1 ▸ ht.fit
  have hh : ∀ (i : Fin m) (j : Fin n), 0 ≤ t.layout.addr [(i : Nat), (j : Nat)] ∧ (t.layout.addr [(i : Nat), (j : Nat)]).toNat < t.data.length :=
    fun i j => ⟨hf.nonneg _ (inRange2.2 ⟨i.2, j.2⟩), (List.getElem?_eq_some_iff.1 (hg i j)).1⟩
  unfold loadFaer
  rw [dif_pos hh]
  congr 1
  funext i j
  exact (List.getElem?_eq_some_iff.1 (hg i j)).2

/-- Writing all elements: no other cell changes. -/
theorem storeFaer_ok {t : Tensor α} (ht : t.WF) {m n : Nat} (hs : t.arr.shape = [m, n]) (hu : t.Unshared) (M : Matrix (Fin m) (Fin n) α) :
    ∃ d, storeFaer t.data t.layout M = .ok d ∧ (⟨d, t.layout⟩ : Tensor α).WF ∧ (⟨d, t.layout⟩ : Tensor α).arr.IsMat M ∧
      ChangedOnly (Addressed t.layout.stride t.layout.offset t.layout.shape) t.data d := by
  have hf : Fit [m, n] t.layout := hs ▸ ht.fit
  have hcov := ht.covers
  have hr : ∀ (i : Fin m) (j : Fin n), InRange [(i : Nat), (j : Nat)] [m, n] := fun i j => inRange2.2 ⟨i.2, j.2⟩
  obtain ⟨d, h1, h2⟩ := runAll_writes (st := fun (ij : Fin m × Fin n) c => modifyAt c (t.layout.addr [(ij.1 : Nat), (ij.2 : Nat)]).toNat fun _ => M ij.1 ij.2)
    (n := t.data.length) (fun ij k v => k = (t.layout.addr [(ij.1 : Nat), (ij.2 : Nat)]).toNat ∧ v = M ij.1 ij.2)
    (xs := (List.finRange m).flatMap fun i => (List.finRange n).map fun j => (i, j)) (c := t.data)
    (fun ij _ c hc => writes_one _ (by rw [hc]; exact hcov _ (by rw [show t.layout.shape = [m, n] from hs]; exact hr ij.1 ij.2)))
    (by
      rintro ⟨i, j⟩ - ⟨i', j'⟩ - k v w ⟨rfl, rfl⟩ ⟨e, rfl⟩
      have a1 := hf.nonneg _ (hr i j)
      have a2 := hf.nonneg _ (hr i' j')
      have e : t.layout.addr [(i : Nat), (j : Nat)] = t.layout.addr [(i' : Nat), (j' : Nat)] := by simp only at e; omega
      have := hu _ _ (hs ▸ hr i j) (hs ▸ hr i' j') e
      simp only [List.cons.injEq, and_true] at this
      have e1 : i = i' := Fin.ext this.1
      have e2 : j = j' := Fin.ext this.2
      subst e1; subst e2; rfl) rfl
  have hw : (⟨d, t.layout⟩ : Tensor α).WF := ht.of_data h2.len
  refine ⟨d, h1, hw, ⟨hs, fun i j => ?_⟩, h2.len, fun k hk => h2.keep k ?_⟩
  · rw [elem_pos hf (hr i j)]
    exact h2.set _ _ ⟨(i, j), by simp, rfl, rfl⟩
  · rintro v ⟨⟨i, j⟩, -, rfl, rfl⟩
    refine hk ⟨[(i : Nat), (j : Nat)], by rw [show t.layout.shape = [m, n] from hs]; exact hr i j, ?_⟩
    have := hf.nonneg _ (hr i j)
    show t.layout.addr _ = _
    simp only
    omega

/-- A matrix of `faer` as a tensor. -/
theorem matInto_ok {cells : List α} {ptr m n : Nat} {rs cs : Int} (ha : Accepted ⟨[⟨m, rs⟩, ⟨n, cs⟩], 0⟩) (hp : ptr ≤ cells.length)
    {M : Matrix (Fin m) (Fin n) α} (hM : ∀ (i : Fin m) (j : Fin n), cells[ptr + ((i : Int) * rs + (j : Int) * cs).toNat]? = some (M i j)) :
    ∃ t, matIntoRstsr cells ptr m n rs cs = .ok t ∧ t.WF ∧ t.arr.IsMat M ∧ t.layout = ⟨[⟨m, rs⟩, ⟨n, cs⟩], 0⟩ := by
  have had : ∀ i j : Nat, (⟨[⟨m, rs⟩, ⟨n, cs⟩], 0⟩ : Layout).addr [i, j] = (i : Int) * rs + (j : Int) * cs := by
    intro i j; rw [addr_mk]; simp [dot]
  have hv : (⟨[⟨m, rs⟩, ⟨n, cs⟩], 0⟩ : Layout).Valid := valid_iff.2 ha
  obtain ⟨ub, hb, hub⟩ : ∃ ub : Int, (∃ lo, (⟨[⟨m, rs⟩, ⟨n, cs⟩], 0⟩ : Layout).boundsIndex = .ok (lo, ub)) ∧ 0 ≤ ub ∧ ptr + ub.toNat ≤ cells.length := by
    by_cases h0 : 0 ∈ (⟨[⟨m, rs⟩, ⟨n, cs⟩], 0⟩ : Layout).shape
    · exact ⟨0, ⟨_, boundsIndex_of_zero h0⟩, le_refl _, by simpa using hp⟩
    · have hb := boundsIndex_of_pos h0 (le_refl _)
      have hlo := ((valid_iff.1 hv).good (le_refl _)).resolve_left h0
      rw [if_pos hlo.1] at hb
      obtain ⟨h1, h2⟩ := hiIdx_spec (axes := [⟨m, rs⟩, ⟨n, cs⟩]) h0
      have h1 : InRange (hiIdx [⟨m, rs⟩, ⟨n, cs⟩]) [m, n] := h1
      have h3 : (0 : Int) ≤ hiSum [⟨m, rs⟩, ⟨n, cs⟩] := by
        have := C22_valid_nonNegative _ hv (le_refl _) _ h1
        have e : (⟨[⟨m, rs⟩, ⟨n, cs⟩], 0⟩ : Layout).addr (hiIdx [⟨m, rs⟩, ⟨n, cs⟩]) = hiSum [⟨m, rs⟩, ⟨n, cs⟩] := by
          rw [addr_mk, h2]; simp
        exact e ▸ this
      refine ⟨_, ⟨_, hb⟩, by simp only; omega, ?_⟩
      obtain ⟨i, j, e, hi, hj⟩ := of_inRange2 h1
      have := (List.getElem?_eq_some_iff.1 (hM ⟨i, hi⟩ ⟨j, hj⟩)).1
      have h4 : (i : Int) * rs + (j : Int) * cs = hiSum [⟨m, rs⟩, ⟨n, cs⟩] := by
        rw [← had, ← e, addr_mk, h2]; simp
      simp only [h4] at this
      simp only
      omega
  obtain ⟨lo, hb⟩ := hb
  have hlen : ((cells.drop ptr).take ub.toNat).length = ub.toNat := by simp; omega
  have hw : (⟨(cells.drop ptr).take ub.toNat, ⟨[⟨m, rs⟩, ⟨n, cs⟩], 0⟩⟩ : Tensor α).WF :=
    ⟨le_refl _, newF_ok hv hb (by rw [hlen]; omega)⟩
  refine ⟨_, ?_, hw, ⟨rfl, fun i j => ?_⟩, rfl⟩
  · unfold matIntoRstsr
    have ha : Layout.newAxes [⟨m, rs⟩, ⟨n, cs⟩] 0 = .ok ⟨[⟨m, rs⟩, ⟨n, cs⟩], 0⟩ := ha
    simp only [ha, orPanic, ok_bind, hb]
    rw [if_neg (by omega)]
    rfl
  · have hr : InRange [(i : Nat), (j : Nat)] [m, n] := inRange2.2 ⟨i.2, j.2⟩
    have hf : Fit [m, n] ⟨[⟨m, rs⟩, ⟨n, cs⟩], 0⟩ := ⟨hv, le_refl _, rfl⟩
    rw [elem_pos hf hr]
    have hs := boundsIndex_sound hb (idx := [(i : Nat), (j : Nat)]) hr
    have hn := hf.nonneg _ hr
    show ((cells.drop ptr).take ub.toNat)[((⟨[⟨m, rs⟩, ⟨n, cs⟩], 0⟩ : Layout).addr [(i : Nat), (j : Nat)]).toNat]? = _
    rw [List.getElem?_take, if_pos (by omega), List.getElem?_drop, had]
    exact hM i j

/-- The distances of columns are not too small. -/
def FaerMem.Fits (mem : FaerMem α) : Prop := ∀ m n, m ≤ mem.ld m n

theorem cells_get {mem : FaerMem α} (hm : mem.Fits) {m n : Nat} (M : Matrix (Fin m) (Fin n) α) (i : Fin m) (j : Fin n) :
    (mem.cells M)[(i : Nat) + j * mem.ld m n]? = some (M i j) := by
  have h0 := hm m n
  have hi := i.2
  have hj := j.2
  have hpos : 0 < mem.ld m n := by omega
  have e1 : ((i : Nat) + j * mem.ld m n) % mem.ld m n = i := by rw [Nat.add_mul_mod_self_right, Nat.mod_eq_of_lt (by omega)]
  have e2 : ((i : Nat) + j * mem.ld m n) / mem.ld m n = j := by
    rw [Nat.add_mul_div_right _ _ hpos, Nat.div_eq_of_lt (by omega), Nat.zero_add]
  have hlt : (i : Nat) + j * mem.ld m n < mem.ld m n * n := by
    calc (i : Nat) + j * mem.ld m n < mem.ld m n + j * mem.ld m n := by omega
      _ = mem.ld m n * (j + 1) := by ring
      _ ≤ mem.ld m n * n := Nat.mul_le_mul_left _ hj
  unfold FaerMem.cells
  rw [List.getElem?_map, List.getElem?_range hlt]
  simp only [Option.map_some, Option.some.injEq]
  rw [dif_pos ⟨by rw [e1]; exact hi, by rw [e2]; exact hj⟩]
  congr 1 <;> exact Fin.ext (by assumption)

theorem accepted_col (m n ld : Nat) (h : m ≤ ld) : Accepted ⟨[⟨m, 1⟩, ⟨n, ld⟩], 0⟩ := by
  by_cases hm : m = 0
  · exact Good.accepted (.inl (by simp [dims, hm]))
  · exact valid_iff.1 (fit_ld (m := m) (n := n) (off := 0) (ld := (ld : Int)) (le_refl _) (by omega)).valid

theorem fromFaer_ok {mem : FaerMem α} (hm : mem.Fits) {m n : Nat} (M : Matrix (Fin m) (Fin n) α) :
    ∃ t, fromFaer mem M = .ok t ∧ t.WF ∧ t.arr.IsMat M ∧ t.layout = ⟨[⟨m, 1⟩, ⟨n, mem.ld m n⟩], 0⟩ := by
  refine matInto_ok (accepted_col m n _ (hm m n)) (Nat.zero_le _) fun i j => ?_
  rw [← cells_get hm M i j]
  congr 1
  have : ((i : Int) * 1 + (j : Int) * (mem.ld m n : Int)).toNat = (i : Nat) + j * mem.ld m n := by
    rw [mul_one, ← Int.natCast_mul, ← Int.natCast_add, Int.toNat_natCast]
  rw [this]; omega

theorem contigOut_ok {mem : FaerMem α} (hm : mem.Fits) (sys order : Order) {m n : Nat} (M : Matrix (Fin m) (Fin n) α) :
    ∃ t, contigOut mem sys order M = .ok ⟨t, .dflt sys⟩ ∧ t.WF ∧ t.arr.IsMat M ∧ t.Unshared := by
  obtain ⟨t, t1, t2, t3, -⟩ := fromFaer_ok hm M
  obtain ⟨c, c1, c2, c3, -, c5⟩ := intoContig_ok sys t2 order
  refine ⟨c, ?_, c2, isMat_same t3 c3, c5⟩
  unfold contigOut
  rw [t1]
  simp only [ok_bind, c1, orPanic]
  rfl

theorem realsOut_ok (lib : FaerLib α ρ) (sys : Order) {n : Nat} (s : Fin n → α) :
    ∃ t, realsOut lib sys s = .ok ⟨t, .dflt sys⟩ ∧ t.WF ∧ t.arr.IsVec fun i => lib.re (s i) := by
  obtain ⟨c, c1, c2, c3⟩ := C36_map sys (valuesOf s) lib.re (valuesOf_ok s).1
  refine ⟨c, ?_, c2, isVec_map (valuesOf_ok s).2 c3⟩
  unfold realsOut
  simp only [c1, orPanic, ok_bind]
  rfl

/-! ## Arguments that may be overwritten -/

theorem unshared_of_writable {t : Tensor α} (ht : t.WF) (h : (0 : Int) ∉ t.layout.stride) : t.Unshared := by
  intro i j hi hj e
  have hb : t.layout.isBroadcasted = false := by
    unfold Layout.isBroadcasted
    simpa using h
  refine pos_inj ht.fit hb hi hj ?_
  unfold Layout.pos
  exact congrArg Int.toNat e

/-- The tensor worked on in place of an argument. -/
theorem convertFaer_ok (dflt : Order) {a : TRef α} (ha : a.Ok) {m n : Nat} {M : Matrix (Fin m) (Fin n) α} (hM : a.t.arr.IsMat M) :
    ∃ x, overwritableConvert dflt a = .ok x ∧ Stands a x M ∧ x.view.Unshared := by
  unfold overwritableConvert
  generalize freeOrder dflt a.t.layout = o
  obtain ⟨c, c1, c2, c3, -, c4⟩ := intoContig_ok dflt ha.wf o
  by_cases h1 : a.mutable = true
  · simp only [h1]
    by_cases h2 : (a.t.layout.fPrefer || a.t.layout.cPrefer) = true
    · simp only [h2]
      refine ⟨_, rfl, ⟨ha.wf, hM, by simp [h1], fun _ => .inl rfl, fun _ e => by cases e⟩, ?_⟩
      rcases ha.writable h1 with h | h
      · exact unshared_of_writable ha.wf h
      · exact fun i j hi _ _ => absurd (hi.pos 0 h) (lt_irrefl 0)
    · simp only [h2, c1]
      refine ⟨_, rfl, ⟨c2, isMat_same hM c3, by simp [h1], fun _ => .inr ⟨_, rfl⟩, fun _ _ h0 => h2 ?_⟩, c4⟩
      rw [Bool.or_eq_true]
      exact .inl (prefers_of_empty .F h0)
  · simp only [h1, c1]
    exact ⟨_, rfl, ⟨c2, isMat_same hM c3, fun _ => ⟨_, rfl⟩, by simp [h1], fun _ e => by cases e⟩, c4⟩

theorem solveFinish_ok (dflt : Order) {b : TRef α} (hb : b.Ok) {x : Mutable α} {m n : Nat} {B : Matrix (Fin m) (Fin n) α} (hB : b.t.arr.IsMat B)
    (h : Stands b x B) (hu : x.view.Unshared) (X : Matrix (Fin m) (Fin n) α) :
    ∃ y, solveFinish dflt x X = .ok y ∧ Leaves b y X ∧ y.cloneToMut dflt = .ok y := by
  obtain ⟨d, d1, d2, d3, d4⟩ := storeFaer_ok h.wf h.mat.1 hu X
  obtain ⟨y, y1, y2, y3⟩ := finish_ok dflt hb h hB.1 d2 d3 d4
  refine ⟨y, ?_, y2, y3⟩
  unfold solveFinish
  rw [d1]
  exact y1

end
end Rstsr
