import Verif.Proof.Writes
import Verif.Model.Gather
/-! # Gathering kernels: lemmas -/
namespace Rstsr
open Spec

section lists

theorem inRange_set_split {s i : List Nat} {a n : Nat} (ha : a < s.length) :
    InRange i (s.set a n) ↔ ∃ j q, InRange j (s.eraseIdx a) ∧ q < n ∧ i = j.insertIdx a q := by
  constructor
  · intro h
    have h1 := inRange_eraseIdx (a := a) h
    rw [List.eraseIdx_set_eq] at h1
    have hq := (inRange_set (p := 0) ha h).1
    have hl : a < i.length := by rw [h.length_eq]; simpa using ha
    refine ⟨i.eraseIdx a, i.getD a 0, h1, hq, ?_⟩
    rw [List.getD_eq_getElem?_getD, List.getElem?_eq_getElem hl, Option.getD_some, List.insertIdx_eraseIdx_getElem hl]
  · rintro ⟨j, q, hj, hq, rfl⟩
    refine inRange_insertIdx (by simpa using ha) (by rwa [List.eraseIdx_set_eq]) ?_
    rw [List.getD_eq_getElem?_getD, List.getElem?_set_self ha]
    exact hq

theorem insertIdx_inj {j j' : List Nat} {a q q' : Nat} (ha : a ≤ j.length) (ha' : a ≤ j'.length)
    (h : j.insertIdx a q = j'.insertIdx a q') : j = j' ∧ q = q' := by
  constructor
  · have := congrArg (·.eraseIdx a) h
    simpa using this
  · have := congrArg (·[a]?) h
    simp only [List.getElem?_insertIdx_self] at this
    rw [if_pos ha, if_pos ha'] at this
    simpa using this

theorem set_insertIdx {j : List Nat} {a q p : Nat} (ha : a ≤ j.length) :
    (j.insertIdx a q).set a p = j.insertIdx a p := by
  induction j generalizing a with
  | nil => simp at ha; subst ha; simp
  | cons x xs ih =>
    cases a with
    | zero => simp
    | succ a => simp [ih (by simpa using ha)]

theorem getD_insertIdx {j : List Nat} {a q : Nat} (ha : a ≤ j.length) : (j.insertIdx a q).getD a 0 = q := by
  rw [List.getD_eq_getElem?_getD, List.getElem?_insertIdx_self, if_pos ha]
  rfl

end lists

theorem shape_newContig (o : Order) (s : List Nat) : (Layout.newContig o s).shape = s := by
  cases o
  · exact shape_newCContig _ _
  · exact shape_newFContig _ _

theorem tight_newContig (o : Order) (s : List Nat) : Tight (Layout.newContig o s) (Layout.newContig o s).size := by
  cases o
  · exact tight_newC s
  · exact tight_newF s

theorem fits_select {l m : Layout} {axis index : Int} (hl : l.Valid) (ho : 0 ≤ l.offset)
    (h : l.dimSelect axis index = .ok m) : Fits (l.shape.eraseIdx (normAxis l.ndim axis)) m := by
  obtain ⟨h1, h2⟩ := C10_select_element l m hl axis index h
  refine ⟨C10_result_valid l m axis index h, ?_, h1⟩
  intro hz
  have hi := inRange_zeros (shape := m.shape) fun d hd => Nat.pos_of_ne_zero fun e => hz (h1 ▸ e ▸ hd)
  obtain ⟨h3, h4⟩ := h2 _ hi
  have h5 := C22_valid_nonNegative l hl ho _ h3
  change 0 ≤ l.addr _ at h5
  rw [← h4, addr_eq] at h5
  have h6 := dot_zeros m.shape.length m.axes
  omega

/-- Axes of a contiguous layout around an axis of length 0 whose stride is 1. -/
theorem fStrides_zero_axis {s : List Nat} {a : Nat} {acc : Int} (hacc : 1 ≤ acc) (ha : a < s.length) (h0 : s.getD a 0 = 0)
    (h1 : ((mkAxes s (fStrides acc s)).getD a default).str = 1) :
    ∀ x ∈ (mkAxes s (fStrides acc s)).eraseIdx a, x.dim = 1 ∨ x.str = 0 := by
  have zero : ∀ (s : List Nat), ∀ x ∈ mkAxes s (fStrides 0 s), x.str = 0 := by
    intro s
    induction s with
    | nil => simp [mkAxes, fStrides]
    | cons d ds ih =>
      intro x hx
      simp only [mkAxes, fStrides, List.zipWith_cons_cons, List.mem_cons] at hx
      rcases hx with rfl | hx
      · rfl
      · rw [Int.zero_mul] at hx; exact ih x hx
  induction s generalizing a acc with
  | nil => simp at ha
  | cons d ds ih =>
    cases a with
    | zero =>
      simp only [List.getD_cons_zero] at h0
      subst h0
      intro x hx
      simp only [mkAxes, fStrides, List.zipWith_cons_cons, List.eraseIdx_cons_zero, Nat.cast_zero, Int.mul_zero] at hx
      exact .inr (zero ds x hx)
    | succ a =>
      simp only [List.getD_cons_succ] at h0
      simp only [mkAxes, fStrides, List.zipWith_cons_cons, List.getD_cons_succ] at h1
      have ha' : a < ds.length := by simpa using ha
      intro x hx
      simp only [mkAxes, fStrides, List.zipWith_cons_cons, List.eraseIdx_cons_succ, List.mem_cons] at hx
      have mono : ∀ (s : List Nat) (acc : Int) (a : Nat), a < s.length → acc ∣ ((mkAxes s (fStrides acc s)).getD a default).str := by
        intro s
        induction s with
        | nil => intro _ a h; simp at h
        | cons e es ih2 =>
          intro acc a h
          cases a with
          | zero => simp [mkAxes, fStrides]
          | succ a =>
            simp only [mkAxes, fStrides, List.zipWith_cons_cons, List.getD_cons_succ]
            exact (Int.dvd_mul_right acc e).trans (ih2 _ _ (by simpa using h))
      have hd := mono ds (acc * d) a ha'
      unfold mkAxes at hd
      rw [h1] at hd
      have hone : acc * d = 1 := by
        have h0 : (0 : Int) ≤ acc * d := Int.mul_nonneg (by omega) (by omega)
        have h1 := Int.le_of_dvd (by omega) hd
        rcases Int.lt_or_eq_of_le h0 with h2 | h2
        · omega
        · rw [← h2] at hd
          have := Int.zero_dvd.1 hd
          omega
      rcases hx with rfl | hx
      · refine .inl ?_
        show d = 1
        have h2 : (d : Int) ∣ 1 := ⟨acc, by rw [← hone]; ring⟩
        have h3 := Int.le_of_dvd (by omega) h2
        have h4 : d ≠ 0 := by rintro rfl; simp at hone
        omega
      · exact ih (by omega) ha' h0 h1 x hx

theorem newContig_zero_axis (o : Order) {s : List Nat} {a : Nat} (ha : a < s.length) (h0 : s.getD a 0 = 0)
    (h1 : ((Layout.newContig o s).axes.getD a default).str = 1) :
    ∀ x ∈ (Layout.newContig o s).axes.eraseIdx a, x.dim = 1 ∨ x.str = 0 := by
  cases o with
  | F => exact fStrides_zero_axis (by omega) ha h0 h1
  | C =>
    have e : (Layout.newContig .C s).axes = (mkAxes s.reverse (fStrides 1 s.reverse)).reverse := by
      show mkAxes s _ = _
      unfold mkAxes strideCContig
      have hl : (fStrides 1 s.reverse).length = s.reverse.length := by
        generalize s.reverse = r
        generalize (1 : Int) = acc
        induction r generalizing acc with
        | nil => rfl
        | cons d ds ih => simp [fStrides, ih]
      rw [List.reverse_zipWith hl.symm, List.reverse_reverse]
    have hlen : (mkAxes s.reverse (fStrides 1 s.reverse)).length = s.length := by
      have := congrArg List.length e
      rw [List.length_reverse] at this
      rw [← this]
      have := congrArg List.length (shape_newContig .C s)
      simpa [Layout.shape] using this
    rw [e] at h1 ⊢
    have g : (mkAxes s.reverse (fStrides 1 s.reverse)).reverse.getD a default =
        (mkAxes s.reverse (fStrides 1 s.reverse)).getD (s.length - 1 - a) default := by
      rw [List.getD_eq_getElem?_getD, List.getElem?_reverse (by omega), List.getD_eq_getElem?_getD, hlen]
    rw [g] at h1
    have h0' : s.reverse.getD (s.length - 1 - a) 0 = 0 := by
      rw [List.getD_eq_getElem?_getD, List.getElem?_reverse (by omega), ← List.getD_eq_getElem?_getD]
      rw [show s.length - 1 - (s.length - 1 - a) = a by omega]
      exact h0
    have key := fStrides_zero_axis (s := s.reverse) (acc := 1) (by omega) (by simp; omega) h0' h1
    intro x hx
    refine key x ?_
    obtain ⟨i, hi, hx⟩ := List.mem_eraseIdx_iff_getElem?.1 hx
    have hil : i < s.length := by
      have := (List.getElem?_eq_some_iff.1 hx).1
      simpa [hlen] using this
    rw [List.getElem?_reverse (by omega), hlen] at hx
    exact List.mem_eraseIdx_iff_getElem?.2 ⟨_, by omega, hx⟩

theorem chop_ok {l : Layout} {a : Nat} (hl : l.Valid) (ha : a < l.axes.length) (hd : (l.axes.getD a default).dim ≠ 0) :
    l.dimChop a = .ok ⟨l.axes.eraseIdx a, l.offset⟩ ∧ Accepted ⟨l.axes.eraseIdx a, l.offset⟩ := by
  have hA := valid_iff.1 hl
  have hax : AxisOk l.ndim (a : Int) := ⟨by omega, by unfold Layout.ndim; omega⟩
  have hn : normAxis l.ndim (a : Int) = a := normAxis_ofNat _ _
  have h0 : AxisOk (l.axes.getD a default).dim 0 := ⟨by omega, by omega⟩
  have h := (dimSelect_ok hA (axis := (a : Int)) (index := 0)).2 ⟨hax, by rw [hn]; exact h0, rfl⟩
  have hv := valid_iff.1 (C10_result_valid l _ _ _ h)
  rw [hn, show normAxis (l.axes.getD a default).dim 0 = 0 from normAxis_ofNat _ 0] at hv
  simp only [Nat.cast_zero, Int.mul_zero, Int.add_zero] at hv
  refine ⟨?_, hv⟩
  unfold Layout.dimChop
  rw [checkAxis_ok.2 ⟨hax, rfl⟩, ok_bind, hn]
  exact hv

theorem chop_contig (o : Order) {s : List Nat} {a : Nat} (ha : a < s.length)
    (h1 : ((Layout.newContig o s).axes.getD a default).str = 1) :
    (Layout.newContig o s).dimChop a = .ok ⟨(Layout.newContig o s).axes.eraseIdx a, 0⟩ ∧
      Accepted ⟨(Layout.newContig o s).axes.eraseIdx a, 0⟩ := by
  have hof : (Layout.newContig o s).offset = 0 := by cases o <;> rfl
  have hlen : (Layout.newContig o s).axes.length = s.length := by
    have := congrArg List.length (shape_newContig o s)
    simpa [Layout.shape] using this
  by_cases h0 : s.getD a 0 = 0
  · have hx := newContig_zero_axis o ha h0 h1
    have hA : Accepted ⟨(Layout.newContig o s).axes.eraseIdx a, 0⟩ := by
      refine accepted_iff.2 (.inr (.inr ⟨?_, [], ?_, trivial⟩))
      · show (0 : Int) ≤ 0 + loSum ((Layout.newContig o s).axes.eraseIdx a)
        generalize (Layout.newContig o s).axes.eraseIdx a = L at hx
        have : loSum L = 0 := by
          induction L with
          | nil => rfl
          | cons x xs ih =>
            rw [loSum_cons, ih fun y hy => hx y (List.mem_cons_of_mem _ hy)]
            unfold lo1
            rcases hx x List.mem_cons_self with h | h <;> simp [h]
        omega
      · have : ((Layout.newContig o s).axes.eraseIdx a).filter Axis.ess = [] := by
          rw [List.filter_eq_nil_iff]
          intro x h
          unfold Axis.ess
          rcases hx x h with h | h <;> simp [h]
        rw [this]
    refine ⟨?_, hA⟩
    unfold Layout.dimChop
    have hck : checkAxis (a : Int) (Layout.newContig o s).ndim = .ok a :=
      checkAxis_ok.2 ⟨⟨by omega, by unfold Layout.ndim; omega⟩, (normAxis_ofNat _ _).symm⟩
    rw [hck, ok_bind, hof]
    exact hA
  · have := chop_ok (tight_newContig o s).valid (a := a) (by omega) (by
      rw [getD_dim, shape_newContig]; exact h0)
    rw [hof] at this
    exact this

section
variable {α γ : Type}

/-- The cells that selecting indices on an axis sets. -/
def SelWrites (s : List Nat) (ax : Nat) (lc la : Layout) (a : List α) (ids : List Nat) (w : α → γ) (k : Nat) (v : γ) : Prop :=
  ∃ j q, InRange j (s.eraseIdx ax) ∧ q < ids.length ∧ lc.pos (j.insertIdx ax q) = k ∧
    ∃ x, a[la.pos (j.insertIdx ax (ids.getD q 0))]? = some x ∧ v = w x

theorem chop_addr {l : Layout} {ax q : Nat} {j : List Nat} (ha : ax < l.axes.length) (hj : j.length + 1 = l.axes.length) :
    l.addr (j.insertIdx ax q) = (⟨l.axes.eraseIdx ax, l.offset⟩ : Layout).addr j + (l.axes.getD ax default).str * q := by
  rw [addr_eq, addr_mk, dot_insertIdx ha hj]
  ring

theorem select_writes (dflt dev : Order) {la : Layout} {a : List α} {s : List Nat} {ax : Nat} {ids : List Nat}
    (hax : ax < s.length) (hla : Fit s la) (ca : Covers s la a) (hids : ∀ i ∈ ids, i < s.getD ax 0)
    (hd : s.getD ax 0 ≠ 0) {c : List γ} (hc : c.length = (Layout.newContig dev (s.set ax ids.length)).size) (w : α → γ) :
    ∃ c', indexSelectKernel dflt c (Layout.newContig dev (s.set ax ids.length)) a la ax ids w = .ok c' ∧
      Writes (SelWrites s ax (Layout.newContig dev (s.set ax ids.length)) la a ids w) c c' := by
  have T := tight_newContig dev (s.set ax ids.length)
  have hof : (Layout.newContig dev (s.set ax ids.length)).offset = 0 := by cases dev <;> rfl
  have hsh := shape_newContig dev (s.set ax ids.length)
  have hax' : ax < (s.set ax ids.length).length := by simpa using hax
  generalize hlc : Layout.newContig dev (s.set ax ids.length) = lc at *
  have lenc : lc.axes.length = s.length := by
    have := congrArg List.length hsh
    simpa [Layout.shape] using this
  have lena : la.axes.length = s.length := by
    have := congrArg List.length hla.shape
    simpa [Layout.shape] using this
  have dimc : (lc.axes.getD ax default).dim = ids.length := by
    rw [getD_dim, hsh, List.getD_eq_getElem?_getD, List.getElem?_set_self hax]; rfl
  have dima : (la.axes.getD ax default).dim = s.getD ax 0 := by rw [getD_dim, hla.shape]
  have hmax : ∀ (l : List Nat) (m : Nat), m < s.getD ax 0 → (∀ i ∈ l, i < s.getD ax 0) → l.foldl max m < s.getD ax 0 := by
    intro l
    induction l with
    | nil => intro m hm _; exact hm
    | cons i l ih =>
      intro m hm h
      exact ih (max m i) (by have := h i List.mem_cons_self; omega) fun j hj => h j (List.mem_cons_of_mem _ hj)
  have hidg : ∀ q, q < ids.length → ids.getD q 0 < s.getD ax 0 := by
    intro q hq
    rw [List.getD_eq_getElem?_getD, List.getElem?_eq_getElem hq]
    exact hids _ (List.getElem_mem _)
  have hce : lc.shape.eraseIdx ax = s.eraseIdx ax := by rw [hsh, List.eraseIdx_set_eq]
  have jlen : ∀ j, InRange j (s.eraseIdx ax) → j.length + 1 = s.length := by
    intro j hj
    have := hj.length_eq
    rw [List.length_eraseIdx_of_lt hax] at this
    omega
  have inC : ∀ j q, InRange j (s.eraseIdx ax) → q < ids.length → InRange (j.insertIdx ax q) lc.shape := by
    intro j q hj hq
    rw [hsh]
    exact (inRange_set_split hax).2 ⟨j, q, hj, hq, rfl⟩
  have inA : ∀ j q, InRange j (s.eraseIdx ax) → q < ids.length → InRange (j.insertIdx ax (ids.getD q 0)) s := by
    intro j q hj hq
    exact inRange_insertIdx hax hj (hidg q hq)
  have uniq : ∀ j q j' q', InRange j (s.eraseIdx ax) → q < ids.length → InRange j' (s.eraseIdx ax) → q' < ids.length →
      lc.pos (j.insertIdx ax q) = lc.pos (j'.insertIdx ax q') → j = j' ∧ q = q' := by
    intro j q j' q' h1 h2 h3 h4 e
    have := T.inj _ _ (inC j q h1 h2) (inC j' q' h3 h4) e
    exact insertIdx_inj (by have := jlen j h1; omega) (by have := jlen j' h3; omega) this
  unfold indexSelectKernel
  rw [if_neg (by simp [Layout.ndim, lenc, lena]), if_neg (by unfold Layout.ndim; omega), if_neg (by rw [dimc]; simp),
    if_neg (by rw [dima]; have := hmax ids 0 (by omega) hids; omega)]
  split
  · rename_i hstr
    obtain ⟨k1, k2⟩ : lc.dimChop ax = .ok ⟨lc.axes.eraseIdx ax, 0⟩ ∧ Accepted ⟨lc.axes.eraseIdx ax, 0⟩ := by
      subst hlc
      exact chop_contig dev hax' hstr
    obtain ⟨k3, k4⟩ := chop_ok hla.valid (a := ax) (by omega) (by rw [dima]; exact hd)
    have fc : Fit (s.eraseIdx ax) ⟨lc.axes.eraseIdx ax, 0⟩ := ⟨valid_iff.2 k2, Int.le_refl _, by
      rw [← hce]; exact dims_eraseIdx _ _⟩
    have fa : Fit (s.eraseIdx ax) ⟨la.axes.eraseIdx ax, la.offset⟩ := ⟨valid_iff.2 k4, hla.off, by
      rw [← hla.shape]; exact dims_eraseIdx _ _⟩
    obtain ⟨e, mc, ma, h1, h2, h3, h4, h5, -⟩ := joint2 dflt fc fa
    rw [k1, k3]
    simp only [ok_bind, h2, dispatch2, h3, ne_eq, not_true_eq_false, if_false, h4, h5, zip_map_self, runAll_map]
    have hmem : ∀ i, i ∈ e ↔ InRange i (s.eraseIdx ax) := fun i => h1.mem_iff.trans mem_all
    have posC : ∀ j q, InRange j (s.eraseIdx ax) →
        lc.pos (j.insertIdx ax q) = (⟨lc.axes.eraseIdx ax, 0⟩ : Layout).pos j + q := by
      intro j q hj
      have h0 := fc.nonneg j hj
      have := chop_addr (l := lc) (q := q) (j := j) (ax := ax) (by omega) (by have := jlen j hj; omega)
      rw [hstr, hof] at this
      unfold Layout.pos
      rw [this]
      omega
    obtain ⟨c', r1, r2⟩ := runAll_writes (n := lc.size)
      (st := fun j => selectRow a (la.axes.getD ax default).str ids w
        ((⟨lc.axes.eraseIdx ax, 0⟩ : Layout).pos j, (⟨la.axes.eraseIdx ax, la.offset⟩ : Layout).pos j))
      (fun j k v => ∃ q ∈ List.range ids.length, lc.pos (j.insertIdx ax q) = k ∧
        ∃ x, a[la.pos (j.insertIdx ax (ids.getD q 0))]? = some x ∧ v = w x) (xs := e) (by
        intro j hj c hcl
        have hj := (hmem j).1 hj
        refine runAll_writes (n := lc.size) (fun q k v => lc.pos (j.insertIdx ax q) = k ∧
          ∃ x, a[la.pos (j.insertIdx ax (ids.getD q 0))]? = some x ∧ v = w x) ?_ ?_ hcl
        · intro q hq c hcl
          have hq := List.mem_range.1 hq
          obtain ⟨x, hx⟩ := ca.get (inA j q hj hq)
          have hp : lc.pos (j.insertIdx ax q) < c.length := by rw [hcl]; exact T.lt _ (inC j q hj hq)
          have ad := chop_addr (l := la) (q := ids.getD q 0) (j := j) (ax := ax) (by omega)
            (by have := jlen j hj; omega)
          have h0 := fa.nonneg j hj
          have h1 := hla.nonneg _ (inA j q hj hq)
          have e1 : (((⟨la.axes.eraseIdx ax, la.offset⟩ : Layout).pos j : Nat) : Int) +
              (la.axes.getD ax default).str * ((ids.getD q 0 : Nat) : Int) = la.addr (j.insertIdx ax (ids.getD q 0)) := by
            rw [ad]; unfold Layout.pos; omega
          obtain ⟨c', g1, g2⟩ := step2_writes hx hp w
          refine ⟨c', ?_, g2.congr ?_⟩
          · simp only
            rw [e1, if_neg (by omega), ← posC j q hj]
            exact g1
          · intro k v
            constructor
            · rintro ⟨rfl, rfl⟩; exact ⟨rfl, x, hx, rfl⟩
            · rintro ⟨rfl, y, hy, rfl⟩
              rw [hx] at hy; cases hy
              exact ⟨rfl, rfl⟩
        · rintro q hq q' hq' k v v' ⟨h1, x, h2, rfl⟩ ⟨h3, y, h4, rfl⟩
          obtain ⟨-, rfl⟩ := uniq j q j q' hj (List.mem_range.1 hq) hj (List.mem_range.1 hq') (h1.trans h3.symm)
          rw [h2] at h4; cases h4; rfl)
      (by
        rintro j hj j' hj' k v v' ⟨q, hq, h1, x, h2, rfl⟩ ⟨q', hq', h3, y, h4, rfl⟩
        obtain ⟨rfl, rfl⟩ := uniq j q j' q' ((hmem j).1 hj) (List.mem_range.1 hq) ((hmem j').1 hj')
          (List.mem_range.1 hq') (h1.trans h3.symm)
        rw [h2] at h4; cases h4; rfl) hc
    refine ⟨c', r1, r2.congr ?_⟩
    intro k v
    constructor
    · rintro ⟨j, hj, q, hq, h⟩
      exact ⟨j, q, (hmem j).1 hj, List.mem_range.1 hq, h⟩
    · rintro ⟨j, q, hj, hq, h⟩
      exact ⟨j, (hmem j).2 hj, q, List.mem_range.2 hq, h⟩
  · obtain ⟨c', r1, r2⟩ := runAll_writes (n := lc.size)
      (st := fun (k : Nat) c => do
        let lcSel ← lc.dimSelect ax k
        let laSel ← la.dimSelect ax (ids.getD k 0 : Nat)
        assign dflt c lcSel a laSel w)
      (fun q k v => ∃ j, InRange j (s.eraseIdx ax) ∧ lc.pos (j.insertIdx ax q) = k ∧
        ∃ x, a[la.pos (j.insertIdx ax (ids.getD q 0))]? = some x ∧ v = w x) (xs := List.range ids.length) (by
        intro q hq c hcl
        have hq := List.mem_range.1 hq
        have nc : normAxis lc.ndim (ax : Int) = ax := normAxis_ofNat _ _
        have na : normAxis la.ndim (ax : Int) = ax := normAxis_ofNat _ _
        have a1 : AxisOk lc.ndim (ax : Int) := ⟨by omega, by unfold Layout.ndim; omega⟩
        have a2 : AxisOk la.ndim (ax : Int) := ⟨by omega, by unfold Layout.ndim; omega⟩
        obtain ⟨m1, g1⟩ := (C10_accept_iff lc T.valid ax q).2 ⟨a1, by
          rw [nc, ← getD_dim, dimc]; exact ⟨by omega, by omega⟩⟩
        obtain ⟨m2, g2⟩ := (C10_accept_iff la hla.valid ax (ids.getD q 0 : Nat)).2 ⟨a2, by
          rw [na, ← getD_dim, dima]; exact ⟨by omega, by have := hidg q hq; omega⟩⟩
        have f1 := fits_select T.valid T.off g1
        have f2 := fits_select hla.valid hla.off g2
        obtain ⟨s1, p1⟩ := C10_select_element lc m1 T.valid _ _ g1
        obtain ⟨s2, p2⟩ := C10_select_element la m2 hla.valid _ _ g2
        simp only [nc, na, normAxis_ofNat] at f1 f2 s1 p1 s2 p2
        rw [hce] at f1 s1
        rw [hla.shape] at f2 s2
        have pos1 : ∀ j, InRange j (s.eraseIdx ax) → m1.pos j = lc.pos (j.insertIdx ax q) := fun j hj =>
          congrArg Int.toNat (p1 j (s1 ▸ hj)).2
        have pos2 : ∀ j, InRange j (s.eraseIdx ax) → m2.pos j = la.pos (j.insertIdx ax (ids.getD q 0)) := fun j hj =>
          congrArg Int.toNat (p2 j (s2 ▸ hj)).2
        obtain ⟨c', w1, w2⟩ := assign_writes dflt f1 f2 (c := c) (a := a)
          (fun j hj => by rw [pos1 j hj, hcl]; exact T.lt _ (inC j q hj hq))
          (fun j hj => by rw [pos2 j hj]; exact ca _ (inA j q hj hq))
          (fun i j hi hj e => by
            rw [pos1 i hi, pos1 j hj] at e
            exact (uniq i q j q hi hq hj hq e).1) w
        refine ⟨c', ?_, w2.congr ?_⟩
        · simp only [g1, g2, ok_bind, w1]
        · intro k v
          unfold CopyWrites
          constructor
          · rintro ⟨j, hj, h1, x, h2, h3⟩
            exact ⟨j, hj, by rw [← pos1 j hj]; exact h1, x, by rw [← pos2 j hj]; exact h2, h3⟩
          · rintro ⟨j, hj, h1, x, h2, h3⟩
            exact ⟨j, hj, by rw [pos1 j hj]; exact h1, x, by rw [pos2 j hj]; exact h2, h3⟩)
      (by
        rintro q hq q' hq' k v v' ⟨j, hj, h1, x, h2, rfl⟩ ⟨j', hj', h3, y, h4, rfl⟩
        obtain ⟨rfl, rfl⟩ := uniq j q j' q' hj (List.mem_range.1 hq) hj' (List.mem_range.1 hq') (h1.trans h3.symm)
        rw [h2] at h4; cases h4; rfl) hc
    refine ⟨c', r1, r2.congr ?_⟩
    intro k v
    constructor
    · rintro ⟨q, hq, j, hj, h⟩
      exact ⟨j, q, hj, List.mem_range.1 hq, h⟩
    · rintro ⟨j, q, hj, hq, h⟩
      exact ⟨q, List.mem_range.2 hq, j, hj, h⟩

end
end Rstsr
