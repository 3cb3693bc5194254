import Verif.Model.Linalg
import Verif.Spec.Linalg
import Verif.Proof.Blas
import Verif.Proof.Composition
import Verif.Thm.Transpose
/-!
# Lemmas for the linear algebra functions: matrices in storage, arguments that may be overwritten
-/
namespace Rstsr
open Spec

section
variable {α : Type}

/-- The layout is one the library reads in this order. -/
def Prefers (o : Order) (l : Layout) : Prop := match o with
  | .F => l.fPrefer = true
  | .C => l.cPrefer = true

/-! ## The copy made for the library -/

theorem moving_pair {l : Layout} {m n : Nat} {s0 s1 : Int} (h : l.axes = [⟨m, s0⟩, ⟨n, s1⟩]) :
    l.movingAxes = ((if m = 1 ∨ s0 = 0 then [] else [0]) ++ (if n = 1 ∨ s1 = 0 then [] else [1])).insertionSort
      fun a b => (l.axes.getD a default).str.natAbs ≤ (l.axes.getD b default).str.natAbs := by
  unfold Layout.movingAxes
  have : l.ndim = 2 := by simp [Layout.ndim, h]
  rw [this]
  congr 1
  rw [show List.range 2 = [0, 1] from rfl, h]
  by_cases h1 : m = 1 <;> by_cases h2 : s0 = 0 <;> by_cases h3 : n = 1 <;> by_cases h4 : s1 = 0 <;> simp [h1, h2, h3, h4]

theorem copyK_prefers (dflt o : Order) {m n : Nat} (hm : m ≠ 0) (hn : n ≠ 0) {lo : Layout}
    (h : (freshLayout o [m, n]).forArrayCopy dflt .K = .ok lo) : Prefers o lo := by
  have hf := (fresh_facts o [m, n]).1
  have hnz := freshLayout_nonzero o [m, n] (by simp; omega)
  have hpl : Plain (freshLayout o [m, n]) := by
    refine ⟨by rw [freshLayout_shape]; simp; omega, fun x hx _ e => hnz ?_⟩
    exact List.mem_map.2 ⟨x, hx, e⟩
  have hp := copyK_packed dflt hf.valid hpl h
  have hs : lo.shape = [m, n] := by
    obtain ⟨lo', h1, h2, -⟩ := forArrayCopy_spec dflt hf.valid .K (by simp)
    rw [h] at h1; cases h1
    rw [h2, freshLayout_shape]
  obtain ⟨t0, t1, ht⟩ := axes2 hs
  cases o with
  | F =>
    have e : (freshLayout .F [m, n]).axes = [⟨m, 1⟩, ⟨n, m⟩] := by
      show (Layout.newFContig [m, n] 0).axes = _
      simp [Layout.newFContig, mkAxes, strideFContig, fStrides]
    rw [moving_pair e, e, ht] at hp
    show lo.fPrefer = true
    rw [fPrefer2 ht hm hn]
    by_cases h1 : m = 1 <;> by_cases h2 : n = 1 <;> simp [h1, h2, pick, Packed] at hp ⊢
    · omega
    · omega
    · have : 1 ≤ m := by omega
      simp [hm, List.insertionSort, this, Packed] at hp
      omega
  | C =>
    have e : (freshLayout .C [m, n]).axes = [⟨m, n⟩, ⟨n, 1⟩] := by
      show (Layout.newCContig [m, n] 0).axes = _
      simp [Layout.newCContig, mkAxes, strideCContig, fStrides]
    rw [moving_pair e, e, ht] at hp
    show lo.cPrefer = true
    rw [cPrefer_rev, fPrefer2 (rev2 ht) hn hm]
    by_cases h1 : m = 1 <;> by_cases h2 : n = 1 <;> simp [h1, h2, pick, Packed] at hp ⊢
    · omega
    · omega
    · have : ¬ n ≤ 1 := by omega
      simp [hn, List.insertionSort, this, Packed] at hp
      omega

theorem fresh_prefers (o : Order) {m n : Nat} (hm : m ≠ 0) (hn : n ≠ 0) : Prefers o (freshLayout o [m, n]) := by
  cases o with
  | F =>
    have e : (freshLayout .F [m, n]).axes = [⟨m, 1⟩, ⟨n, m⟩] := by
      show (Layout.newFContig [m, n] 0).axes = _
      simp [Layout.newFContig, mkAxes, strideFContig, fStrides]
    exact (fPrefer2 e hm hn).2 ⟨fun _ => rfl, fun _ => by omega⟩
  | C =>
    have e : (freshLayout .C [m, n]).axes = [⟨m, n⟩, ⟨n, 1⟩] := by
      show (Layout.newCContig [m, n] 0).axes = _
      simp [Layout.newCContig, mkAxes, strideCContig, fStrides]
    show Layout.cPrefer _ = true
    rw [cPrefer_rev]
    exact (fPrefer2 (rev2 e) hn hm).2 ⟨fun _ => rfl, fun _ => by omega⟩

theorem size_of_empty {l : Layout} (h : 0 ∈ l.shape) : l.size = 0 := by
  rw [Layout.size, List.prod_eq_zero_iff]; exact h

theorem prefers_of_empty (o : Order) {l : Layout} (h : 0 ∈ l.shape) : Prefers o l := by
  cases o <;> simp [Prefers, Layout.fPrefer, Layout.cPrefer, size_of_empty h]

/-- A matrix without elements counts as row-major. -/
theorem storageOrder_of_empty {l : Layout} (h : 0 ∈ l.shape) : storageOrder l = .C := by
  simp [storageOrder, Layout.fPrefer, Layout.cPrefer, size_of_empty h]

theorem storageF {l : Layout} {m n : Nat} (hs : l.shape = [m, n]) (h : storageOrder l = .F) : m ≠ 0 ∧ n ≠ 0 := by
  have : 0 ∉ l.shape := fun h0 => by rw [storageOrder_of_empty h0] at h; cases h
  rw [hs] at this
  simp only [List.mem_cons, List.not_mem_nil, or_false, not_or] at this
  exact ⟨fun e => this.1 e.symm, fun e => this.2 e.symm⟩

/-- The copy is in the order asked for. -/
theorem intoContig_prefers (dflt : Order) {a c : Tensor α} (ha : a.WF) {m n : Nat} (hs : a.arr.shape = [m, n])
    {o : Order} (h : Tensor.intoContig dflt a o = .ok c) : Prefers o c.layout := by
  have hs' : a.layout.shape = [m, n] := hs
  by_cases hz : 0 ∈ a.arr.shape
  · obtain ⟨c', c1, -, c3, -⟩ := intoContig_ok dflt ha o
    rw [h] at c1
    cases c1
    exact prefers_of_empty o (show 0 ∈ c.arr.shape by rw [c3.1]; exact hz)
  obtain ⟨hm, hn⟩ : m ≠ 0 ∧ n ≠ 0 := by
    rw [hs] at hz
    simp only [List.mem_cons, List.not_mem_nil, or_false, not_or] at hz
    exact ⟨fun e => hz.1 e.symm, fun e => hz.2 e.symm⟩
  obtain ⟨b, b1, hb, b2, -⟩ := changeLayout_tight dflt ha (freshLayout_tight o a.layout.shape)
    (by simp only [Layout.size, freshLayout_shape])
  have b1 : Tensor.changeContig dflt a o = .ok b := by cases o <;> exact b1
  obtain ⟨mn, mx, hbd, -, -⟩ := WF_bounds b2
  unfold Tensor.intoContig at h
  rw [b1] at h
  simp only [ok_bind] at h
  unfold Tensor.intoOwned at h
  simp only [hbd, ok_bind] at h
  rw [hs'] at hb
  by_cases hc : mn = 0 ∧ mx = b.data.length ∧ mx = b.layout.size
  · simp only [if_pos hc] at h
    cases h
    rw [hb]
    exact fresh_prefers o hm hn
  · simp only [if_neg hc] at h
    obtain ⟨c', c1, -⟩ := C35_asarray dflt b b2 .K (by simp)
    rw [c1] at h
    cases h
    unfold Tensor.asarray at c1
    obtain ⟨l, h1, c1⟩ := bind_ok.1 c1
    obtain ⟨_, -, c1⟩ := bind_ok.1 c1
    obtain ⟨_, -, c1⟩ := bind_ok.1 c1
    rw [newF_layout c1]
    rw [hb] at h1
    exact copyK_prefers dflt o hm hn h1

/-! ## Matrices in storage -/

/-- The matrix is where the library looks for it. -/
def MatAt (d : List α) (off ld : Int) {m n : Nat} (M : Matrix (Fin m) (Fin n) α) : Prop :=
  ∀ (i : Fin m) (j : Fin n), 0 ≤ blasPos false off ld i j ∧ d[(blasPos false off ld i j).toNat]? = some (M i j)

theorem loadMat_ok {d : List α} {off ld : Int} {m n : Nat} {M : Matrix (Fin m) (Fin n) α} (h : MatAt d off ld M) :
    loadMat d off ld m n = .ok M := by
  have h' : ∀ (i : Fin m) (j : Fin n), 0 ≤ blasPos false off ld i j ∧ (blasPos false off ld i j).toNat < d.length :=
    fun i j => ⟨(h i j).1, (List.getElem?_eq_some_iff.1 (h i j).2).1⟩
  unfold loadMat
  rw [dif_pos h']
  congr 1
  funext i j
  exact (List.getElem?_eq_some_iff.1 (h i j).2).2

theorem storeMat_writes {d : List α} {off ld : Int} {m n : Nat} {M : Matrix (Fin m) (Fin n) α} (h : MatAt d off ld M)
    (hld : (max 1 m : Int) ≤ ld) (M' : Matrix (Fin m) (Fin n) α) :
    Writes (fun k v => ∃ (i : Fin m) (j : Fin n), (blasPos false off ld i j).toNat = k ∧ v = M' i j) d (storeMat d off ld M') := by
  have key : ∀ (i : Fin m) (j : Fin n), ((blasPos false off ld i j) - off) % ld = i ∧ ((blasPos false off ld i j) - off) / ld = j := by
    intro i j
    have e : blasPos false off ld i j - off = i + j * ld := by simp [blasPos]; ring
    rw [e]
    have h1 : (0 : Int) < ld := by omega
    have h2 : (i : Int) < ld := by omega
    constructor
    · rw [Int.add_mul_emod_self_right, Int.emod_eq_of_lt (by omega) h2]
    · rw [Int.add_mul_ediv_right _ _ (by omega), Int.ediv_eq_zero_of_lt (by omega) h2]; omega
  refine ⟨by simp [storeMat], ?_, ?_⟩
  · rintro k v ⟨i, j, rfl, rfl⟩
    obtain ⟨h1, h2⟩ := h i j
    obtain ⟨k1, k2⟩ := key i j
    have hc : (((blasPos false off ld i j).toNat : Nat) : Int) = blasPos false off ld i j := by omega
    have hi := i.2
    have hj := j.2
    have hp : 0 ≤ blasPos false off ld i j - off := by
      have e : blasPos false off ld i j - off = i + j * ld := by simp [blasPos]; ring
      rw [e]
      have : 0 ≤ (j : Int) * ld := Int.mul_nonneg (by omega) (by omega)
      omega
    simp only [storeMat, List.getElem?_mapIdx, h2, Option.map_some, hc]
    rw [dif_pos ⟨hp, by rw [k1]; simpa using hi, by rw [k2]; simpa using hj⟩]
    simp only [k1, k2, Int.toNat_natCast]
  · intro k hk
    simp only [storeMat, List.getElem?_mapIdx]
    cases e : d[k]? with
    | none => rfl
    | some x =>
      simp only [Option.map_some, Option.some.injEq]
      split
      · rename_i hh
        exfalso
        have h1 : (0 : Int) < ld := by omega
        refine hk _ ⟨⟨_, hh.2.1⟩, ⟨_, hh.2.2⟩, ?_, rfl⟩
        have a1 : 0 ≤ ((k : Int) - off) % ld := Int.emod_nonneg _ (by omega)
        have a2 : 0 ≤ ((k : Int) - off) / ld := Int.ediv_nonneg hh.1 (by omega)
        have a3 := Int.emod_add_mul_ediv ((k : Int) - off) ld
        have e : blasPos false off ld (((k : Int) - off) % ld).toNat (((k : Int) - off) / ld).toNat = k := by
          simp only [blasPos, Bool.false_eq_true, if_false, Int.toNat_of_nonneg a1, Int.toNat_of_nonneg a2]
          rw [mul_comm (((k : Int) - off) / ld)]
          omega
        show (blasPos false off ld (((k : Int) - off) % ld).toNat (((k : Int) - off) / ld).toNat).toNat = k
        rw [e]; omega
      · rfl

theorem storeMat_at {d : List α} {off ld : Int} {m n : Nat} {M : Matrix (Fin m) (Fin n) α} (h : MatAt d off ld M)
    (hld : (max 1 m : Int) ≤ ld) (M' : Matrix (Fin m) (Fin n) α) : MatAt (storeMat d off ld M') off ld M' :=
  fun i j => ⟨(h i j).1, (storeMat_writes h hld M').set _ _ ⟨i, j, rfl, rfl⟩⟩

theorem fit_ld {m n : Nat} {off ld : Int} (ho : 0 ≤ off) (hld : (max 1 m : Int) ≤ ld) : Fit [m, n] ⟨[⟨m, 1⟩, ⟨n, ld⟩], off⟩ := by
  refine ⟨valid_iff.2 (Good.accepted ?_), ho, rfl⟩
  by_cases hm : m = 0
  · exact Or.inl (by simp [dims, hm])
  by_cases hn : n = 0
  · exact Or.inl (by simp [dims, hn])
  have h1 : (0 : Int) < ld := by omega
  refine Or.inr ⟨by simp [loSum, h1, ho], ⟨_, List.Perm.refl _, ?_⟩⟩
  have h2 : ld ≠ 0 := by omega
  by_cases e1 : 1 < m <;> by_cases e2 : 1 < n <;> simp [List.filter, Axis.ess, e1, e2, h2, SuperInc]
  omega

theorem pos_col {m n : Nat} {off ld : Int} (i j : Nat) : (⟨[⟨m, 1⟩, ⟨n, ld⟩], off⟩ : Layout).pos [i, j] = (blasPos false off ld i j).toNat := by
  unfold Layout.pos
  rw [r2c_addr]
  congr 1
  simp [blasPos]; ring

theorem pos_row {m n : Nat} {off ld : Int} (i j : Nat) : (⟨[⟨m, ld⟩, ⟨n, 1⟩], off⟩ : Layout).pos [i, j] = (blasPos false off ld j i).toNat := by
  unfold Layout.pos
  rw [r2c_addr]
  congr 1
  simp [blasPos]; ring

theorem inj_ld {m n : Nat} {off ld : Int} (ho : 0 ≤ off) (hld : (max 1 m : Int) ≤ ld) (i j : List Nat) (hi : InRange i [m, n])
    (hj : InRange j [m, n]) (e : (⟨[⟨m, 1⟩, ⟨n, ld⟩], off⟩ : Layout).pos i = (⟨[⟨m, 1⟩, ⟨n, ld⟩], off⟩ : Layout).pos j) : i = j := by
  have h0 : (⟨[⟨m, 1⟩, ⟨n, ld⟩], off⟩ : Layout).isBroadcasted = false := by
    have : ld ≠ 0 := by omega
    simp [Layout.isBroadcasted, Layout.stride, this.symm]
  exact pos_inj (fit_ld ho hld) h0 hi hj e

theorem covers_col {d : List α} {off ld : Int} {m n : Nat} {M : Matrix (Fin m) (Fin n) α} (h : MatAt d off ld M) :
    Covers [m, n] ⟨[⟨m, 1⟩, ⟨n, ld⟩], off⟩ d := by
  intro idx hi
  obtain ⟨i, j, rfl, h1, h2⟩ := of_inRange2 hi
  rw [pos_col]
  exact (List.getElem?_eq_some_iff.1 (h ⟨i, h1⟩ ⟨j, h2⟩).2).1

theorem covers_row {d : List α} {off ld : Int} {m n : Nat} {M : Matrix (Fin m) (Fin n) α} (h : MatAt d off ld M.transpose) :
    Covers [m, n] ⟨[⟨m, ld⟩, ⟨n, 1⟩], off⟩ d := by
  intro idx hi
  obtain ⟨i, j, rfl, h1, h2⟩ := of_inRange2 hi
  rw [pos_row]
  exact (List.getElem?_eq_some_iff.1 (h ⟨j, h2⟩ ⟨i, h1⟩).2).1

theorem MatAt.map {d : List α} {off ld : Int} {m n : Nat} {M : Matrix (Fin m) (Fin n) α} (h : MatAt d off ld M) :
    MatAt (d.map some) off ld (M.map some) := fun i j => ⟨(h i j).1, by simp [(h i j).2]⟩

theorem rowIn_ok {a : List α} {off lda : Int} {m n : Nat} {M : Matrix (Fin m) (Fin n) α} (h : MatAt a off lda M.transpose)
    (ho : 0 ≤ off) (hld : (max 1 n : Int) ≤ lda) (hm : m ≠ 0) :
    ∃ w, rowIn a off lda m n = .ok w ∧ MatAt w 0 (max m 1 : Nat) M := by
  have hld' : (max 1 m : Int) ≤ ((max m 1 : Nat) : Int) := by omega
  have fc := fit_ld (m := m) (n := n) (off := 0) (le_refl _) hld'
  have fa : Fit [m, n] ⟨[⟨m, lda⟩, ⟨n, 1⟩], off⟩ := (fit_ld (m := n) (n := m) ho hld).rev
  have e1 : max m 1 = m := by omega
  have bnd : ∀ i j, i < m → j < n → i + j * m < m * n := fun i j hi hj => by
    have h1 : (j + 1) * m ≤ n * m := Nat.mul_le_mul_right m hj
    have h2 : (j + 1) * m = j * m + m := by ring
    have h3 : n * m = m * n := Nat.mul_comm _ _
    omega
  have pp : ∀ i j : Nat, (blasPos false 0 ((max m 1 : Nat) : Int) i j).toNat = i + j * m := fun i j => by
    rw [e1]; simp only [blasPos, Bool.false_eq_true, if_false, zero_add]
    have : ((i : Int) + (j : Int) * (m : Int)) = ((i + j * m : Nat) : Int) := by push_cast; ring
    rw [this]; exact Int.toNat_natCast _
  have hul : (uninit ((m * n : Nat) : Int) : List (Option α)).length = m * n := by
    rw [uninit, List.length_replicate, Int.toNat_natCast]
  have cc : Covers [m, n] ⟨[⟨m, 1⟩, ⟨n, ((max m 1 : Nat) : Int)⟩], 0⟩ (uninit ((m * n : Nat) : Int) : List (Option α)) := by
    intro idx hi
    obtain ⟨i, j, rfl, h1, h2⟩ := of_inRange2 hi
    rw [pos_col, pp, hul]
    exact bnd i j h1 h2
  obtain ⟨c, c1, c2⟩ := order_core fc fa cc (covers_row (M := M.map some) h.map) rfl rfl (inj_ld (le_refl _) hld')
  have hc : ∀ (i : Fin m) (j : Fin n), c[(blasPos false 0 ((max m 1 : Nat) : Int) i j).toNat]? = some (some (M i j)) := by
    intro i j
    refine c2.set _ _ ⟨[i, j], inRange2.2 ⟨i.2, j.2⟩, pos_col _ _, some (M i j), ?_, rfl⟩
    rw [pos_row]
    exact (h.map j i).2
  obtain ⟨w, w1, w2, w3⟩ := assumeInit_ok (c := c) (by
    intro k hk
    rw [c2.len, hul] at hk
    have h1 : k % m < m := Nat.mod_lt _ (by omega)
    have h2 : k / m < n := Nat.div_lt_of_lt_mul hk
    refine ⟨M ⟨k % m, h1⟩ ⟨k / m, h2⟩, ?_⟩
    have := hc ⟨k % m, h1⟩ ⟨k / m, h2⟩
    rw [pp] at this
    have e : k % m + k / m * m = k := by rw [Nat.mul_comm]; exact Nat.mod_add_div k m
    rwa [show k % m + k / m * m = k from e] at this)
  refine ⟨w, ?_, fun i j => ⟨?_, w3 _ _ (hc i j)⟩⟩
  · unfold rowIn
    rw [show ((max (m : Int) 1)) = ((max m 1 : Nat) : Int) by omega, c1.1]
    exact w1
  · simp only [blasPos, Bool.false_eq_true, if_false, zero_add]
    positivity

theorem rowOut_ok {a at' : List α} {off lda : Int} {m n : Nat} {M M' : Matrix (Fin m) (Fin n) α} (h : MatAt a off lda M.transpose)
    (ho : 0 ≤ off) (hld : (max 1 n : Int) ≤ lda) (h' : MatAt at' 0 (max m 1 : Nat) M') :
    ∃ d, rowOut a off lda m n at' = .ok d ∧
      Writes (fun k v => ∃ (i : Fin m) (j : Fin n), (blasPos false off lda j i).toNat = k ∧ v = M' i j) a d := by
  have hld' : (max 1 m : Int) ≤ ((max m 1 : Nat) : Int) := by omega
  have fc := fit_ld (m := n) (n := m) ho hld
  have fa : Fit [n, m] ⟨[⟨n, ((max m 1 : Nat) : Int)⟩, ⟨m, 1⟩], 0⟩ := (fit_ld (m := m) (n := n) (off := 0) (le_refl _) hld').rev
  obtain ⟨d, d1, d2⟩ := order_core fc fa (covers_col h) (covers_row (M := M'.transpose) h') rfl rfl (inj_ld ho hld)
  refine ⟨d, ?_, d2.congr fun k v => ?_⟩
  · unfold rowOut orderC2R
    rw [show ((max (m : Int) 1)) = ((max m 1 : Nat) : Int) by omega]
    have := d1.1
    simp only [Layout.reverseAxes, List.reverse_cons, List.reverse_nil, List.nil_append, List.singleton_append]
    rw [this]
    rfl
  · unfold CopyWrites
    constructor
    · rintro ⟨idx, hi, e, x, hx, rfl⟩
      obtain ⟨j, i, rfl, h1, h2⟩ := of_inRange2 hi
      rw [pos_col] at e
      rw [pos_row] at hx
      have := (h' ⟨i, h2⟩ ⟨j, h1⟩).2
      rw [this] at hx
      injection hx with hx
      exact ⟨⟨i, h2⟩, ⟨j, h1⟩, e, hx.symm⟩
    · rintro ⟨i, j, e, rfl⟩
      refine ⟨[j, i], inRange2.2 ⟨j.2, i.2⟩, by rw [pos_col]; exact e, M' i j, ?_, rfl⟩
      rw [pos_row]
      exact (h' i j).2

theorem isMat_get {t : Tensor α} (ht : t.WF) {m n : Nat} {M : Matrix (Fin m) (Fin n) α} (h : t.arr.IsMat M)
    (i : Fin m) (j : Fin n) : t.data[t.layout.pos [(i : Nat), (j : Nat)]]? = some (M i j) := by
  have := h.2 i j
  rwa [elem_pos (s := [m, n]) (h.1 ▸ ht.fit) (inRange2.2 ⟨i.2, j.2⟩)] at this

/-- A tensor in the order asked for, as the library sees it: it finds the matrix, and what it writes becomes the matrix of the
tensor, with no other cell of the storage changed. -/
theorem matIo_ld {t : Tensor α} (ht : t.WF) {m n : Nat} {M : Matrix (Fin m) (Fin n) α} (hM : t.arr.IsMat M) (hm : m ≠ 0) (hn : n ≠ 0)
    {o : Order} (hp : Prefers o t.layout) :
    ∃ ld w off' ld', ldUnwrap t.layout o = .ok ld ∧ matIn o t.data t.layout.offset ld m n = .ok (w, off', ld') ∧
      (max 1 m : Int) ≤ ld' ∧ loadMat w off' ld' m n = .ok M ∧
      (∀ M' : Matrix (Fin m) (Fin n) α, ∃ d, matOut o t.data t.layout.offset ld m n (storeMat w off' ld' M') = .ok d ∧
        (⟨d, t.layout⟩ : Tensor α).WF ∧ (⟨d, t.layout⟩ : Tensor α).arr.IsMat M' ∧
        ChangedOnly (Addressed t.layout.stride t.layout.offset t.layout.shape) t.data d) ∧ (max 1 (min m n) : Int) ≤ ld := by
  have hs : t.layout.shape = [m, n] := hM.1
  have hf : Fit [m, n] t.layout := hs ▸ ht.fit
  obtain ⟨s0, s1, ha⟩ := axes2 hs
  have fin : ∀ d (M' : Matrix (Fin m) (Fin n) α),
      Writes (fun k v => ∃ (i : Fin m) (j : Fin n), t.layout.pos [(i : Nat), (j : Nat)] = k ∧ v = M' i j) t.data d →
      (⟨d, t.layout⟩ : Tensor α).WF ∧ (⟨d, t.layout⟩ : Tensor α).arr.IsMat M' ∧
        ChangedOnly (Addressed t.layout.stride t.layout.offset t.layout.shape) t.data d := by
    intro d M' hd
    refine ⟨ht.of_data hd.len, ⟨hs, fun i j => ?_⟩, changed_of hf hd.len fun k hk => hd.keep k ?_⟩
    · rw [elem_pos hf (inRange2.2 ⟨i.2, j.2⟩)]
      exact hd.set _ _ ⟨i, j, rfl, rfl⟩
    · rintro v ⟨i, j, e, -⟩
      exact hk _ (inRange2.2 ⟨i.2, j.2⟩) e
  cases o with
  | F =>
    have hp : t.layout.fPrefer = true := hp
    obtain ⟨h1, h2⟩ := lead_ok hf hm hn hp
    have e : ldUnwrap t.layout .F = .ok (leadDim t.layout) := by
      simp only [ldUnwrap, Layout.ld, hp]
      rw [leadDim2 ha]
      by_cases e : n = 1 <;> simp [Layout.dimAt, Layout.shape, Layout.stride, ha, e]
    have pe : ∀ (i : Fin m) (j : Fin n), (blasPos false t.layout.offset (leadDim t.layout) i j).toNat = t.layout.pos [(i : Nat), (j : Nat)] :=
      fun i j => by rw [h2 i i.2 j j.2]; rfl
    have hat : MatAt t.data t.layout.offset (leadDim t.layout) M := fun i j => by
      refine ⟨?_, ?_⟩
      · rw [h2 i i.2 j j.2]; exact hf.nonneg _ (inRange2.2 ⟨i.2, j.2⟩)
      · rw [pe]; exact isMat_get ht hM i j
    refine ⟨_, _, _, _, e, rfl, h1, loadMat_ok hat, fun M' => ⟨_, rfl, fin _ M' ?_⟩, by omega⟩
    refine (storeMat_writes hat h1 M').congr fun k v => ?_
    simp only [pe]
  | C =>
    have hp : t.layout.reverseAxes.fPrefer = true := by rw [← cPrefer_rev]; exact hp
    obtain ⟨h1, h2⟩ := lead_ok (m := n) (n := m) hf.rev hn hm hp
    have h2 : ∀ i < n, ∀ j < m, blasPos false t.layout.offset (leadDim t.layout.reverseAxes) i j = t.layout.addr [j, i] := by
      intro i hi j hj
      have := h2 i hi j hj
      rw [rev_addr (by simp [Layout.ndim, ha])] at this
      exact this
    have e : ldUnwrap t.layout .C = .ok (leadDim t.layout.reverseAxes) := by
      have : t.layout.cPrefer = true := by rw [cPrefer_rev]; exact hp
      simp only [ldUnwrap, Layout.ld, this]
      rw [leadDim2 (rev2 ha)]
      by_cases e : m = 1 <;> simp [Layout.dimAt, Layout.shape, Layout.stride, ha, e]
    have pe : ∀ (i : Fin n) (j : Fin m), (blasPos false t.layout.offset (leadDim t.layout.reverseAxes) i j).toNat = t.layout.pos [(j : Nat), (i : Nat)] :=
      fun i j => by rw [h2 i i.2 j j.2]; rfl
    have hat : MatAt t.data t.layout.offset (leadDim t.layout.reverseAxes) M.transpose := fun i j => by
      refine ⟨?_, ?_⟩
      · rw [h2 i i.2 j j.2]; exact hf.nonneg _ (inRange2.2 ⟨j.2, i.2⟩)
      · rw [pe]; exact isMat_get ht hM j i
    obtain ⟨w, w1, w2⟩ := rowIn_ok hat hf.off h1 hm
    have hld' : (max 1 m : Int) ≤ ((max m 1 : Nat) : Int) := by omega
    refine ⟨_, w, 0, ((max m 1 : Nat) : Int), e, ?_, hld', loadMat_ok w2, fun M' => ?_, by omega⟩
    · simp only [matIn, w1, ok_bind]
      rw [show ((max (m : Int) 1)) = ((max m 1 : Nat) : Int) by omega]
      rfl
    · obtain ⟨d, d1, d2⟩ := rowOut_ok hat hf.off h1 (storeMat_at w2 hld' M')
      refine ⟨d, d1, fin _ M' (d2.congr fun k v => ?_)⟩
      simp only [pe]

/-- The same for a matrix without elements, which is row-major. -/
theorem matIo_empty {t : Tensor α} (ht : t.WF) {m n : Nat} {M : Matrix (Fin m) (Fin n) α} (hM : t.arr.IsMat M) (h0 : m = 0 ∨ n = 0) :
    ∃ ld w off' ld', ldUnwrap t.layout .C = .ok ld ∧ matIn .C t.data t.layout.offset ld m n = .ok (w, off', ld') ∧
      (max 1 m : Int) ≤ ld' ∧ loadMat w off' ld' m n = .ok M ∧
      ∀ M' : Matrix (Fin m) (Fin n) α, ∃ d, matOut .C t.data t.layout.offset ld m n (storeMat w off' ld' M') = .ok d ∧
        (⟨d, t.layout⟩ : Tensor α).WF ∧ (⟨d, t.layout⟩ : Tensor α).arr.IsMat M' ∧
        ChangedOnly (Addressed t.layout.stride t.layout.offset t.layout.shape) t.data d := by
  have hs : t.layout.shape = [m, n] := hM.1
  have hz : 0 ∈ t.layout.shape := by
    rw [hs]
    simp only [List.mem_cons, List.not_mem_nil, or_false]
    omega
  have no : ∀ idx, ¬ InRange idx [m, n] := fun idx hi => by
    obtain ⟨i, j, rfl, h1, h2⟩ := of_inRange2 hi
    omega
  have no' : ∀ idx, ¬ InRange idx [n, m] := fun idx hi => by
    obtain ⟨i, j, rfl, h1, h2⟩ := of_inRange2 hi
    omega
  have nof : ∀ (i : Fin m) (j : Fin n), False := fun i j => no [i, j] (inRange2.2 ⟨i.2, j.2⟩)
  have fit : ∀ {s : List Nat} {off : Int} {p q : Axis}, 0 ∈ s → 0 ≤ off → [p.dim, q.dim] = s → Fit s ⟨[p, q], off⟩ := by
    intro s off p q h h1 h2
    refine ⟨valid_iff.2 (Good.accepted (Or.inl ?_)), h1, h2⟩
    show 0 ∈ [p.dim, q.dim]
    rw [h2]; exact h
  have hz2 : 0 ∈ [m, n] := hs ▸ hz
  have hz3 : 0 ∈ [n, m] := by
    simp only [List.mem_cons, List.not_mem_nil, or_false] at hz2 ⊢
    exact hz2.symm
  obtain ⟨ld, hld⟩ : ∃ ld, ldUnwrap t.layout .C = .ok ld := by
    have : t.layout.cPrefer = true := prefers_of_empty .C hz
    simp only [ldUnwrap, Layout.ld, this]
    by_cases e : t.layout.dimAt 0 = 1 <;> simp [e]
  have hmn : m * n = 0 := by rcases h0 with h | h <;> simp [h]
  obtain ⟨c, c1, c2⟩ := order_core (c := (uninit ((m * n : Nat) : Int) : List (Option α))) (a := t.data.map some)
    (lc := ⟨[⟨m, 1⟩, ⟨n, (max m 1 : Int)⟩], 0⟩) (la := ⟨[⟨m, ld⟩, ⟨n, 1⟩], t.layout.offset⟩) (m := m) (n := n)
    (fit hz2 (le_refl _) rfl) (fit hz2 ht.1 rfl) (fun i hi => absurd hi (no i)) (fun i hi => absurd hi (no i)) rfl rfl (fun i _ hi => absurd hi (no i))
  have hc : c = [] := by
    have := c2.len
    rw [hmn] at this
    exact List.length_eq_zero_iff.1 (this.trans (by simp [uninit]))
  have hin : rowIn t.data t.layout.offset ld m n = .ok [] := by
    unfold rowIn
    rw [c1.1, hc]
    rfl
  refine ⟨ld, [], 0, max m 1, hld, ?_, by omega, loadMat_ok fun i j => (nof i j).elim, fun M' => ?_⟩
  · simp only [matIn, hin, ok_bind]
    rfl
  · obtain ⟨d, d1, d2⟩ := order_core (c := t.data) (a := storeMat [] 0 (max m 1) M')
      (lc := ⟨[⟨n, 1⟩, ⟨m, ld⟩], t.layout.offset⟩) (la := ⟨[⟨n, (max m 1 : Int)⟩, ⟨m, 1⟩], 0⟩) (m := n) (n := m)
      (fit hz3 ht.1 rfl) (fit hz3 (le_refl _) rfl) (fun i hi => absurd hi (no' i)) (fun i hi => absurd hi (no' i)) rfl rfl
      (fun i _ hi => absurd hi (no' i))
    have hk : ∀ k, d[k]? = t.data[k]? := fun k => d2.keep k fun v ⟨idx, hi, _⟩ => no' idx hi
    refine ⟨d, ?_, ht.of_data d2.len, ⟨hs, fun i j => (nof i j).elim⟩, d2.len, fun k _ => hk k⟩
    unfold matOut rowOut orderC2R
    have := d1.1
    simp only [Layout.reverseAxes, List.reverse_cons, List.reverse_nil, List.nil_append, List.singleton_append]
    rw [this]
    rfl

/-- The matrix is in the order asked for, and not without elements in column-major order. -/
theorem matIo {t : Tensor α} (ht : t.WF) {m n : Nat} {M : Matrix (Fin m) (Fin n) α} (hM : t.arr.IsMat M)
    {o : Order} (he : o = .F → m ≠ 0 ∧ n ≠ 0) (hp : Prefers o t.layout) :
    ∃ ld w off' ld', ldUnwrap t.layout o = .ok ld ∧ matIn o t.data t.layout.offset ld m n = .ok (w, off', ld') ∧
      (max 1 m : Int) ≤ ld' ∧ loadMat w off' ld' m n = .ok M ∧
      (∀ M' : Matrix (Fin m) (Fin n) α, ∃ d, matOut o t.data t.layout.offset ld m n (storeMat w off' ld' M') = .ok d ∧
        (⟨d, t.layout⟩ : Tensor α).WF ∧ (⟨d, t.layout⟩ : Tensor α).arr.IsMat M' ∧
        ChangedOnly (Addressed t.layout.stride t.layout.offset t.layout.shape) t.data d) ∧
      (m ≠ 0 → n ≠ 0 → (max 1 (min m n) : Int) ≤ ld) := by
  by_cases h0 : m ≠ 0 ∧ n ≠ 0
  · obtain ⟨ld, w, off', ld', h1, h2, h3, h4, h5, h6⟩ := matIo_ld ht hM h0.1 h0.2 hp
    exact ⟨ld, w, off', ld', h1, h2, h3, h4, h5, fun _ _ => h6⟩
  · cases o with
    | F => exact absurd (he rfl) h0
    | C =>
      obtain ⟨ld, w, off', ld', h1, h2, h3, h4, h5⟩ := matIo_empty ht hM (by omega)
      exact ⟨ld, w, off', ld', h1, h2, h3, h4, h5, fun a b => absurd ⟨a, b⟩ h0⟩

theorem mat_io {t : Tensor α} (ht : t.WF) {m n : Nat} {M : Matrix (Fin m) (Fin n) α} (hM : t.arr.IsMat M) (hm : m ≠ 0) (hn : n ≠ 0)
    {o : Order} (hp : Prefers o t.layout) :
    ∃ ld w off' ld', ldUnwrap t.layout o = .ok ld ∧ matIn o t.data t.layout.offset ld m n = .ok (w, off', ld') ∧
      (max 1 m : Int) ≤ ld' ∧ loadMat w off' ld' m n = .ok M ∧
      ∀ M' : Matrix (Fin m) (Fin n) α, ∃ d, matOut o t.data t.layout.offset ld m n (storeMat w off' ld' M') = .ok d ∧
        (⟨d, t.layout⟩ : Tensor α).WF ∧ (⟨d, t.layout⟩ : Tensor α).arr.IsMat M' ∧
        ChangedOnly (Addressed t.layout.stride t.layout.offset t.layout.shape) t.data d := by
  obtain ⟨ld, w, off', ld', h1, h2, h3, h4, h5, -⟩ := matIo_ld ht hM hm hn hp
  exact ⟨ld, w, off', ld', h1, h2, h3, h4, h5⟩

/-! ## Arguments that may be overwritten -/

/-- A tensor, and one that can be written if it is to be written: not stretched, or without elements. -/
structure TRef.Ok (a : TRef α) : Prop where
  wf : a.t.WF
  writable : a.mutable = true → (0 : Int) ∉ a.t.layout.stride ∨ 0 ∈ a.t.layout.shape

theorem isMat_same {A B : Arr α} {m n : Nat} {M : Matrix (Fin m) (Fin n) α} (h : A.IsMat M) (hs : A.Same B) : B.IsMat M := by
  refine ⟨hs.1.trans h.1, fun i j => ?_⟩
  obtain ⟨x, h1, h2⟩ := hs.2 [(i : Nat), (j : Nat)] (h.1 ▸ inRange2.2 ⟨i.2, j.2⟩)
  rw [h.2 i j] at h1
  rw [h2, h1]

/-- The tensor worked on in place of an argument. -/
structure Stands (a : TRef α) (x : Mutable α) {m n : Nat} (M : Matrix (Fin m) (Fin n) α) : Prop where
  wf : x.view.WF
  mat : x.view.arr.IsMat M
  owned : a.mutable = false → ∃ t, x = .owned t
  shared : a.mutable = true → x = .inPlace a.t ∨ ∃ buf, x = .toBeCloned a.t buf
  full : ∀ buf, x = .toBeCloned a.t buf → 0 ∉ a.t.layout.shape

theorem convertOrder_ok (dflt : Order) {a : TRef α} (ha : a.Ok) {m n : Nat} {M : Matrix (Fin m) (Fin n) α} (hM : a.t.arr.IsMat M)
    (o : Order) :
    ∃ x, overwritableConvertWithOrder dflt a o = .ok x ∧ Stands a x M ∧ Prefers o x.view.layout := by
  obtain ⟨c, c1, c2, c3, -, -⟩ := intoContig_ok dflt ha.wf o
  have c4 := intoContig_prefers dflt ha.wf hM.1 c1
  unfold overwritableConvertWithOrder
  by_cases h1 : a.mutable = true
  · rw [if_neg (by simp [h1])]
    by_cases h2 : (o = .F ∧ a.t.layout.fPrefer = true) ∨ (o = .C ∧ a.t.layout.cPrefer = true)
    · rw [if_pos h2]
      refine ⟨_, rfl, ⟨ha.wf, hM, by simp [h1], fun _ => .inl rfl, fun _ e => by cases e⟩, ?_⟩
      rcases h2 with ⟨rfl, h⟩ | ⟨rfl, h⟩ <;> exact h
    · rw [if_neg h2, c1]
      refine ⟨_, rfl, ⟨c2, isMat_same hM c3, by simp [h1], fun _ => .inr ⟨_, rfl⟩, fun _ _ h0 => h2 ?_⟩, c4⟩
      have := prefers_of_empty o h0
      cases o
      exacts [.inr ⟨rfl, this⟩, .inl ⟨rfl, this⟩]
  · rw [if_pos (by simp [h1]), c1]
    exact ⟨_, rfl, ⟨c2, isMat_same hM c3, fun _ => ⟨_, rfl⟩, by simp [h1], fun _ e => by cases e⟩, c4⟩

theorem storageOrder_prefers {l : Layout} (h : l.fPrefer = true ∨ l.cPrefer = true) : Prefers (storageOrder l) l := by
  unfold storageOrder
  cases hf : l.fPrefer <;> cases hc : l.cPrefer <;> simp_all [Prefers]

/-- The same for a tensor that is written in place, whatever the strides of axes of length one. -/
theorem convertAny_ok (dflt : Order) {a : TRef α} (ha : a.t.WF) {m n : Nat} {M : Matrix (Fin m) (Fin n) α} (hM : a.t.arr.IsMat M) :
    ∃ x, overwritableConvert dflt a = .ok x ∧ Stands a x M ∧ Prefers (storageOrder x.view.layout) x.view.layout ∧
      ∀ buf, x = .toBeCloned a.t buf → (a.t.layout.fPrefer || a.t.layout.cPrefer) = false := by
  have any : ∀ (o : Order) (l : Layout), Prefers o l → Prefers (storageOrder l) l := fun o l h =>
    storageOrder_prefers (by cases o; exacts [.inr h, .inl h])
  unfold overwritableConvert
  generalize freeOrder dflt a.t.layout = o
  obtain ⟨c, c1, c2, c3, -, -⟩ := intoContig_ok dflt ha o
  have c4 := any _ _ (intoContig_prefers dflt ha hM.1 c1)
  by_cases h1 : a.mutable = true
  · simp only [h1]
    by_cases h2 : (a.t.layout.fPrefer || a.t.layout.cPrefer) = true
    · simp only [h2]
      exact ⟨_, rfl, ⟨ha, hM, by simp [h1], fun _ => .inl rfl, fun _ e => by cases e⟩, storageOrder_prefers ((Bool.or_eq_true _ _).mp h2), by intro b e; cases e⟩
    · simp only [h2, c1]
      refine ⟨_, rfl, ⟨c2, isMat_same hM c3, by simp [h1], fun _ => .inr ⟨_, rfl⟩, fun _ _ h0 => h2 ?_⟩, c4, fun _ _ => trivial⟩
      rw [Bool.or_eq_true]
      exact .inl (prefers_of_empty .F h0)
  · simp only [h1, c1]
    exact ⟨_, rfl, ⟨c2, isMat_same hM c3, fun _ => ⟨_, rfl⟩, by simp [h1], fun _ e => by cases e⟩, c4, by intro b e; cases e⟩

theorem convert_ok (dflt : Order) {a : TRef α} (ha : a.Ok) {m n : Nat} {M : Matrix (Fin m) (Fin n) α} (hM : a.t.arr.IsMat M) :
    ∃ x, overwritableConvert dflt a = .ok x ∧ Stands a x M ∧ Prefers (storageOrder x.view.layout) x.view.layout := by
  obtain ⟨x, h1, h2, h3, -⟩ := convertAny_ok dflt ha.wf hM
  exact ⟨x, h1, h2, h3⟩

/-- What is left in the tensor worked on, and in the argument. -/
structure Leaves (a : TRef α) (x : Mutable α) {m n : Nat} (M : Matrix (Fin m) (Fin n) α) : Prop where
  wf : x.view.WF
  mat : x.view.arr.IsMat M
  owned : a.mutable = false → ∃ t, x = .owned t
  shared : a.mutable = true → ∃ d, x = .inPlace ⟨d, a.t.layout⟩ ∧
    ChangedOnly (Addressed a.t.layout.stride a.t.layout.offset a.t.layout.shape) a.t.data d

theorem broadcast_refl (o : Order) (s : List Nat) : BroadcastOf o s s s :=
  ⟨by simp, fun _ _ => ⟨.inl rfl, .inl rfl, .inl rfl⟩⟩

/-- Writing to the tensor worked on and giving the result back. -/
theorem finishAny_ok (dflt : Order) {a : TRef α} (ha : a.t.WF) {x : Mutable α}
    (hw : ∀ buf, a.mutable = true → x = .toBeCloned a.t buf → (0 : Int) ∉ a.t.layout.stride) {m n : Nat} {M M' : Matrix (Fin m) (Fin n) α} (h : Stands a x M)
    (hs : a.t.arr.shape = [m, n])
    {d : List α} (h1 : (⟨d, x.view.layout⟩ : Tensor α).WF) (h2 : (⟨d, x.view.layout⟩ : Tensor α).arr.IsMat M')
    (h3 : ChangedOnly (Addressed x.view.layout.stride x.view.layout.offset x.view.layout.shape) x.view.data d) :
    ∃ y, (x.setData d).cloneToMut dflt = .ok y ∧ Leaves a y M' ∧ y.cloneToMut dflt = .ok y := by
  by_cases hm : a.mutable = true
  · rcases h.shared hm with rfl | ⟨buf, rfl⟩
    · exact ⟨_, rfl, ⟨h1, h2, by simp [hm], fun _ => ⟨d, rfl, h3⟩⟩, rfl⟩
    · have hbs : (⟨d, buf.layout⟩ : Tensor α).arr.shape = a.t.arr.shape := h2.1.trans hs.symm
      obtain ⟨c, c1, c2, c3, c4, c5⟩ := C33_assign_partial dflt true a.t ⟨d, buf.layout⟩ id ha h1 (hw _ hm rfl)
        (by rw [hbs]; exact broadcast_refl _ _)
      obtain ⟨cd, cl⟩ := c
      subst c3
      refine ⟨.inPlace ⟨cd, a.t.layout⟩, ?_, ⟨c2, ⟨hs, fun i j => ?_⟩, by simp [hm], fun _ => ⟨cd, rfl, c5⟩⟩, rfl⟩
      · simp only [Mutable.setData, Mutable.cloneToMut, c1]
      · have hr : InRange [(i : Nat), (j : Nat)] a.t.arr.shape := by rw [hs]; exact inRange2.2 ⟨i.2, j.2⟩
        obtain ⟨y, y1, y2⟩ := c4 _ hr
        rw [hbs, stretchIndex_self hr] at y1
        have := h2.2 i j
        show (⟨cd, a.t.layout⟩ : Tensor α).arr.elem _ = _
        rw [y2]
        exact y1.symm.trans this
  · obtain ⟨t, rfl⟩ := h.owned (by simpa using hm)
    exact ⟨_, rfl, ⟨h1, h2, fun _ => ⟨_, rfl⟩, by simp [hm]⟩, rfl⟩

theorem finish_ok (dflt : Order) {a : TRef α} (ha : a.Ok) {x : Mutable α} {m n : Nat} {M M' : Matrix (Fin m) (Fin n) α} (h : Stands a x M)
    (hs : a.t.arr.shape = [m, n])
    {d : List α} (h1 : (⟨d, x.view.layout⟩ : Tensor α).WF) (h2 : (⟨d, x.view.layout⟩ : Tensor α).arr.IsMat M')
    (h3 : ChangedOnly (Addressed x.view.layout.stride x.view.layout.offset x.view.layout.shape) x.view.data d) :
    ∃ y, (x.setData d).cloneToMut dflt = .ok y ∧ Leaves a y M' ∧ y.cloneToMut dflt = .ok y :=
  finishAny_ok dflt ha.wf (fun _ hm e => (ha.writable hm).resolve_right (h.full _ e)) h hs h1 h2 h3

/-! ## Vectors as columns -/

theorem column_layout {l : Layout} {n : Nat} {s : Int} (hl : l.Valid) (ho : 0 ≤ l.offset) (h : l.axes = [⟨n, s⟩]) (hs : l.shape = [n]) :
    ∃ t, l.dimSlice [Layout.fullSlice, .insert] = .ok ⟨[⟨n, s⟩, ⟨1, t⟩], l.offset⟩ ∧ (s ≠ 0 → t ≠ 0) ∧ Good ⟨[⟨n, s⟩, ⟨1, t⟩], l.offset⟩ := by
  have hnew : Layout.newAxes l.axes l.offset = .ok l := valid_iff.1 hl
  have hg := (valid_iff.1 hl).good ho
  have hnd : l.ndim = 1 := by simp [Layout.ndim, h]
  have hgood : ∀ t, Good ⟨[⟨n, s⟩, ⟨1, t⟩], l.offset⟩ := by
    intro t
    rcases hg with h0 | ⟨h0, h1⟩
    · left
      rw [h] at h0
      simp only [dims, List.map_cons, List.map_nil, List.mem_cons, List.not_mem_nil, or_false] at h0 ⊢
      exact .inl h0
    · right
      rw [h] at h0 h1
      refine ⟨by simp [loSum] at h0 ⊢; exact h0, ?_⟩
      obtain ⟨L, l1, l2⟩ := h1
      refine ⟨L, ?_, l2⟩
      simpa [List.filter, Axis.ess] using l1
  refine ⟨if l.fPrefer then s else 1, ?_, fun h => by split <;> simp [h], hgood _⟩
  have hins : l.dimInsert 1 = .ok ⟨[⟨n, s⟩, ⟨1, if l.fPrefer then s else 1⟩], l.offset⟩ := by
    unfold Layout.dimInsert
    simp only [hnd, h]
    have : checkAxisInsert 1 1 = .ok 1 := rfl
    simp only [this, ok_bind, Nat.sub_self]
    have e := (hgood (if l.fPrefer then s else 1)).accepted
    by_cases hf : l.fPrefer = true
    · simp only [hf, if_true] at e ⊢
      exact e
    · simp only [hf, if_false] at e ⊢
      exact e
  unfold Layout.dimSlice
  rw [hnew]
  simp only [ok_bind, Layout.fullSlice, Layout.countIndexers, hnd, Layout.fillIndexers]
  simp only [le_refl, if_true, Nat.sub_self, zero_add, List.reverse_cons, List.reverse_nil, List.nil_append, List.singleton_append, Layout.sliceLoop]
  rw [show (((1 : Nat) : Int)) = 1 from rfl, hins]
  rfl

end
end Rstsr
