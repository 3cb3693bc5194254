import Verif.Proof.FaerLinalg
import Verif.Proof.Pinv
import Verif.Thm.Faer
/-!
# Lemmas for the singular values on the device of `faer`
-/
namespace Rstsr
open Spec Matrix

section
variable {α β ρ γ : Type}

/-- The copy of a vector in one piece has the same layout. -/
theorem copyK_vec (dflt : Order) (k : Nat) : Layout.forArrayCopy dflt ⟨[⟨k, 1⟩], 0⟩ .K = .ok ⟨[⟨k, 1⟩], 0⟩ := by
  have hv : Layout.Valid ⟨[⟨k, 1⟩], 0⟩ := (freshLayout_tight .C [k]).valid
  have key : ∃ g : Layout, Layout.greedy ⟨[⟨k, 1⟩], 0⟩ true = .ok (g, [0]) ∧ g.shape = [k] := by
    by_cases hs : (⟨[⟨k, 1⟩], 0⟩ : Layout).size = 0
    · exact ⟨_, greedy_zero _ hs, rfl⟩
    · have hp : (greedyIndex ⟨[⟨k, 1⟩], 0⟩).Perm [0] := greedyIndex_perm ⟨[⟨k, 1⟩], 0⟩
      have e := List.perm_singleton.1 hp
      have hg := greedy_keep (valid_iff.1 hv) hs
      rw [e] at hg
      exact ⟨_, hg, rfl⟩
  obtain ⟨g, g1, g2⟩ := key
  unfold Layout.forArrayCopy
  simp only [g1, ok_bind, g2]
  rfl

/-- The copy of a matrix without columns. -/
theorem copyK_empty (dflt : Order) (m : Nat) (s0 s1 off : Int) : Layout.forArrayCopy dflt ⟨[⟨m, s0⟩, ⟨0, s1⟩], off⟩ .K = .ok ⟨[⟨m, 1⟩, ⟨0, 1 * m⟩], 0⟩ := by
  have hs : (⟨[⟨m, s0⟩, ⟨0, s1⟩], off⟩ : Layout).size = 0 := by simp [Layout.size, Layout.shape]
  unfold Layout.forArrayCopy
  simp only [greedy_zero _ hs, ok_bind]
  rfl

theorem map_layout {dflt : Order} {a : Tensor α} {f : α → γ} {c : Tensor γ} (h : Tensor.map dflt a f = .ok c) :
    a.layout.forArrayCopy dflt .K = .ok c.layout := by
  unfold Tensor.map at h
  obtain ⟨lc, e, h⟩ := bind_ok.1 h
  unfold Tensor.build at h
  obtain ⟨⟨_, _⟩, -, h⟩ := bind_ok.1 h
  obtain ⟨_, -, h⟩ := bind_ok.1 h
  obtain ⟨_, -, h⟩ := bind_ok.1 h
  rw [newF_layout h]
  exact e

theorem newF_data {d : List α} {l : Layout} {t : Tensor α} (h : Tensor.newF d l = .ok t) : t.data = d := by
  unfold Tensor.newF at h
  obtain ⟨_, -, h⟩ := bind_ok.1 h
  obtain ⟨⟨_, mx⟩, -, h⟩ := bind_ok.1 h
  by_cases hle : mx ≤ (d.length : Int)
  · simp only [if_pos hle] at h
    cases h; rfl
  · simp only [if_neg hle] at h
    cases h

theorem map_length {dflt : Order} {a : Tensor α} (ha : a.WF) {f : α → γ} {c : Tensor γ} (h : Tensor.map dflt a f = .ok c) :
    c.layout.boundsIndex = .ok (0, (c.data.length : Int)) := by
  obtain ⟨m, h1, h2, h3, h4⟩ := forArrayCopy_spec dflt ha.fit.valid .K (by simp)
  obtain ⟨hv, n, hb, hlt, hsur⟩ := h3.spec
  have hlen : (uninit (n : Int) : List (Option γ)).length = n := by simp [uninit]
  obtain ⟨c', k1, k2, k3, -⟩ := write2 dflt (h3.fit h2) ha.fit (c := uninit (n : Int)) (fun i hi => by rw [hlen]; exact hlt i (h2 ▸ hi)) ha.covers
    (fun i j hi hj e => by
      have := dense_inj h3 (fun hz => h4 (h2 ▸ hz)) (h2 ▸ hi) (h2 ▸ hj) e
      subst this; rfl) fun x => some (f x)
  unfold Tensor.map at h
  rw [h1] at h
  unfold Tensor.build at h
  simp only [ok_bind, hb, k1] at h
  obtain ⟨d, e, h⟩ := bind_ok.1 h
  have hl : d.length = c'.length := by
    obtain ⟨d', e1, e2, -⟩ := assumeInit_ok (c := c') (fun k hk => by
      rw [k2, hlen] at hk
      obtain ⟨i, hi, rfl⟩ := hsur k hk
      obtain ⟨x, hx, -⟩ := ha.get (h2 ▸ hi)
      exact ⟨f x, k3 i (h2 ▸ hi) x hx⟩)
    rw [e] at e1
    cases e1
    exact e2
  have hn := newF_data h
  rw [newF_layout h, hn, hl, k2, hlen, hb]

theorem realsOut_eq (lib : FaerLib α ρ) (sys : Order) {n : Nat} (s : Fin n → α) :
    realsOut lib sys s = .ok ⟨valuesOf fun i => lib.re (s i), .dflt sys⟩ := by
  obtain ⟨w, v⟩ := valuesOf_ok s
  obtain ⟨c, c1, c2, c3⟩ := C36_map sys (valuesOf s) lib.re w
  have hl := map_layout c1
  rw [show (valuesOf s).layout = ⟨[⟨n, 1⟩], 0⟩ from rfl, copyK_vec] at hl
  have hl : c.layout = ⟨[⟨n, 1⟩], 0⟩ := by injection hl with hl; exact hl.symm
  have hb := map_length w c1
  have hlen : c.data.length = n := by
    rw [hl] at hb
    obtain ⟨mn, h⟩ := (freshLayout_tight .C [n]).bounds
    rw [show freshLayout .C [n] = ⟨[⟨n, 1⟩], 0⟩ from rfl, hb] at h
    injection h with h
    have := (Prod.ext_iff.1 h).2
    simp only [Layout.size, Layout.shape, List.map_cons, List.map_nil, List.prod_cons, List.prod_nil, mul_one] at this
    omega
  have hv := isVec_map v c3
  have e : c = valuesOf fun i => lib.re (s i) := by
    obtain ⟨d, l⟩ := c
    have hl : l = ⟨[⟨n, 1⟩], 0⟩ := hl
    subst hl
    show (⟨d, _⟩ : Tensor ρ) = ⟨List.ofFn _, _⟩
    congr 1
    apply List.ext_getElem
    · rw [List.length_ofFn]; exact hlen
    · intro i h1 h2
      rw [List.getElem_ofFn]
      have h1' : i < n := by rw [← hlen]; exact h1
      have := hv.2 ⟨i, h1'⟩
      rw [elem_pos (s := [n]) c2.fit (by simp [InRange]; exact h1')] at this
      have hp : Layout.pos ⟨[⟨n, 1⟩], 0⟩ [i] = i := by simp [Layout.pos, addr_eq, dot]
      simp only [hp] at this
      rw [List.getElem?_eq_getElem h1] at this
      injection this
  unfold realsOut
  rw [c1, e]
  rfl

/-- A copy of a matrix that `faer` has made. -/
theorem ownedFaer_ok {mem : FaerMem α} (hm : mem.Fits) (sys : Order) {m n : Nat} (h0 : m ≠ 0) (h1 : n ≠ 0) (M : Matrix (Fin m) (Fin n) α) {t : Tensor α}
    (ht : t.WF) (hM : t.arr.IsMat M) (hl : t.layout = ⟨[⟨m, 1⟩, ⟨n, mem.ld m n⟩], 0⟩) :
    ∃ u, Tensor.intoOwned sys t = .ok u ∧ u.WF ∧ u.arr.IsMat M ∧ (0 : Int) ∉ u.layout.stride ∧ u.layout.offset = 0 := by
  obtain ⟨c, c1, c2, c3, -⟩ := C35_into_owned sys t ht
  obtain ⟨mn, mx, hb, -, -⟩ := WF_bounds ht
  refine ⟨c, c1, c2, isMat_same hM c3, ?_⟩
  unfold Tensor.intoOwned at c1
  simp only [hb, ok_bind] at c1
  split at c1
  · cases c1
    rw [hl]
    have := hm m n
    refine ⟨?_, rfl⟩
    simp [Layout.stride]
    omega
  · obtain ⟨l, h1', h2, h3, h4⟩ := forArrayCopy_spec sys ht.fit.valid .K (by simp)
    have hm : c.layout = l := by
      unfold Tensor.asarray at c1
      simp only [h1', ok_bind] at c1
      obtain ⟨_, -, c1⟩ := bind_ok.1 c1
      obtain ⟨_, -, c1⟩ := bind_ok.1 c1
      exact newF_layout c1
    rw [hm]
    refine ⟨?_, h3.off⟩
    intro h
    obtain ⟨x, hx, e⟩ := List.mem_map.1 h
    exact h4 (by rw [hl]; simp [Layout.shape]; omega) x hx e

theorem sum_range_fin [AddCommMonoid γ] (k : Nat) (f : Nat → γ) : ((List.range k).map f).sum = ∑ q : Fin k, f q := by
  rw [Fin.sum_univ_def, ← List.map_coe_finRange_eq_range, List.map_map]
  rfl

/-- The product of two matrices. -/
theorem faerProduct_ok [CommSemiring γ] [DecidableEq γ] (dev : Order) (par : MatPar) (hp : (par.sched 0).Fits) (fresh : Nat → γ) {a b : Tensor γ} (ha : a.WF)
    (hb : b.WF) {n k m : Nat} {A : Matrix (Fin n) (Fin k) γ} {B : Matrix (Fin k) (Fin m) γ} (hA : a.arr.IsMat A) (hB : b.arr.IsMat B)
    (sa : a.Settled) (sb : b.Settled) :
    ∃ c w d, Tensor.matmulFaer (ringOps (· * ·)) 1 dev par false fresh a b 1 = .ok (c, w) ∧ w.Leaves c.data d ∧ (⟨d, c.layout⟩ : Tensor γ).WF ∧
      (⟨d, c.layout⟩ : Tensor γ).arr.IsMat (A * B) := by
  have g : ∀ x : List Nat, glue dev [] x = x := by intro x; cases dev <;> simp [glue]
  have S : MatShapes dev a.arr.shape b.arr.shape [n, m] [] [] [] [n] [m] k :=
    ⟨by rw [g]; exact hA.1, by rw [g]; exact hB.1, by rw [g]; rfl, by simp, by simp, by simp, by simp, by refine ⟨rfl, ?_⟩; simp⟩
  obtain ⟨c, w, d, h1, h2, h3, -, h5, h6⟩ := C81_faer_matmul_partial dev par hp false fresh a b (by simp) ha hb [n, m] [] [] [] [n] [m] k S (by simp) sa sb 1
  refine ⟨c, w, d, h1, h2, h3, h5, fun i j => ?_⟩
  obtain ⟨e, ⟨x, y, hxy, he⟩, he2⟩ := h6 [] [(i : Nat)] [(j : Nat)] (by simp [InRange]) (by simp [InRange]) (by simp [InRange])
  rw [g] at he2
  rw [one_mul] at he2
  rw [show [(i : Nat), (j : Nat)] = [(i : Nat)] ++ [(j : Nat)] from rfl, he2, he, Matrix.mul_apply]
  congr 1
  rw [sum_range_fin k fun q => x q * y q]
  refine Finset.sum_congr rfl fun q _ => ?_
  obtain ⟨p1, p2⟩ := hxy q q.2
  simp only [show stretchIndex dev [] [] = [] by cases dev <;> rfl, g] at p1 p2
  rw [show [(i : Nat)] ++ [(q : Nat)] = [(i : Nat), (q : Nat)] from rfl, hA.2 i q] at p1
  rw [hB.2 q j] at p2
  injection p1 with p1
  injection p2 with p2
  rw [p1, p2]

end
end Rstsr
