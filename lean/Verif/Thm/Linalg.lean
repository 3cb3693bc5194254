import Verif.Proof.Linalg
/-!
# C68: solving a system of linear equations
-/
namespace Rstsr
open Spec

section
variable {α : Type}

theorem checkLd_ok {ld : Int} {m : Nat} {info : Int} (h : (max 1 m : Int) ≤ ld) : checkLd ld m info = .ok () := by
  unfold checkLd; rw [if_neg (by omega)]

theorem dimAt2 {l : Layout} {m n : Nat} (h : l.shape = [m, n]) : l.dimAt 0 = m ∧ l.dimAt 1 = n := by
  simp [Layout.dimAt, h]

/-- What the library is called with and what is done with its results. -/
theorem withTwo_ok {β : Type} {s t : Tensor α} (hs : s.WF) (ht : t.WF) {n m : Nat}
    {A : Matrix (Fin n) (Fin n) α} {B : Matrix (Fin n) (Fin m) α} (hA : s.arr.IsMat A) (hB : t.arr.IsMat B) {o : Order}
    (he : o = .F → n ≠ 0 ∧ m ≠ 0) (ps : Prefers o s.layout) (pt : Prefers o t.layout) (badA badB : Int)
    (f : Matrix (Fin n) (Fin n) α → Matrix (Fin n) (Fin m) α → Except Int (Matrix (Fin n) (Fin n) α × β × Matrix (Fin n) (Fin m) α)) :
    ∃ lda ldb, ldUnwrap s.layout o = .ok lda ∧ ldUnwrap t.layout o = .ok ldb ∧
      (∀ info, f A B = .error info →
        withTwo o n m s.data s.layout.offset lda t.data t.layout.offset ldb badA badB f = .error (.errorCode info)) ∧
      ∀ F p X, f A B = .ok (F, p, X) → ∃ da db,
        withTwo o n m s.data s.layout.offset lda t.data t.layout.offset ldb badA badB f = .ok (da, p, db) ∧
        ((⟨da, s.layout⟩ : Tensor α).WF ∧ (⟨da, s.layout⟩ : Tensor α).arr.IsMat F ∧
          ChangedOnly (Addressed s.layout.stride s.layout.offset s.layout.shape) s.data da) ∧
        (⟨db, t.layout⟩ : Tensor α).WF ∧ (⟨db, t.layout⟩ : Tensor α).arr.IsMat X ∧
          ChangedOnly (Addressed t.layout.stride t.layout.offset t.layout.shape) t.data db := by
  obtain ⟨lda, wa, pa, la, a1, a2, a3, a4, a5, -⟩ := matIo hs hA (fun e => ⟨(he e).1, (he e).1⟩) ps
  obtain ⟨ldb, wb, pb, lb, b1, b2, b3, b4, b5, -⟩ := matIo ht hB he pt
  refine ⟨lda, ldb, a1, b1, fun info h => ?_, fun F p X h => ?_⟩
  · unfold withTwo
    simp only [a2, b2, ok_bind, checkLd_ok a3, checkLd_ok b3, a4, b4, h, liftInfo]
    rfl
  · obtain ⟨da, u1, u2⟩ := a5 F
    obtain ⟨db, v1, v2⟩ := b5 X
    refine ⟨da, db, ?_, u2, v2⟩
    unfold withTwo
    simp only [a2, b2, ok_bind, checkLd_ok a3, checkLd_ok b3, a4, b4, h, liftInfo, u1, v1]
    rfl

/-- What `gesv` is called with and what is done with its results. -/
theorem gesvRun_ok (lib : Lapack α) (dflt : Order) {a b : TRef α} (ha : a.Ok) (hb : b.Ok) {n m : Nat}
    {A : Matrix (Fin n) (Fin n) α} {B : Matrix (Fin n) (Fin m) α} (hA : a.t.arr.IsMat A) (hB : b.t.arr.IsMat B) :
    (∀ info, lib.gesv n m A B = .error info → gesvRun lib dflt a b = .error (.errorCode info)) ∧
    ∀ F p X, lib.gesv n m A B = .ok (F, p, X) → ∃ a' x, gesvRun lib dflt a b = .ok (a', (List.ofFn p).map (· - 1), x) ∧
      Leaves a a' F ∧ Leaves b x X ∧ x.cloneToMut dflt = .ok x := by
  obtain ⟨x, x1, x2, x3⟩ := convert_ok dflt hb hB
  obtain ⟨y, y1, y2, y3⟩ := convertOrder_ok dflt ha hA (storageOrder x.view.layout)
  have hx : x.view.layout.shape = [n, m] := x2.mat.1
  obtain ⟨lda, ldb, a1, b1, k1, k2⟩ := withTwo_ok y2.wf x2.wf y2.mat x2.mat (storageF hx) y3 x3 (-4) (-7) (lib.gesv n m)
  have hy : y.view.layout.shape = [n, n] := y2.mat.1
  obtain ⟨d0, d1⟩ := dimAt2 hx
  have key : gesvRun lib dflt a b = (do
      let (da, p, db) ← driverGesv lib (storageOrder x.view.layout) n m y.view.data y.view.layout.offset lda x.view.data x.view.layout.offset ldb
      return (← (y.setData da).cloneToMut dflt, p.map (· - 1), ← (x.setData db).cloneToMut dflt)) := by
    unfold gesvRun
    simp only [x1, ok_bind, y1, d0, d1, hy, ne_eq, not_true_eq_false, if_false, a1, b1]
  rw [key]
  unfold driverGesv
  constructor
  · intro info h
    rw [k1 info h]; rfl
  · intro F p X h
    obtain ⟨da, db, e, ⟨u2, u3, u4⟩, v2, v3, v4⟩ := k2 F p X h
    obtain ⟨a', p1, p2, -⟩ := finish_ok dflt ha y2 hA.1 u2 u3 u4
    obtain ⟨x', q1, q2, q3⟩ := finish_ok dflt hb x2 hB.1 v2 v3 v4
    refine ⟨a', x', ?_, p2, q2, q3⟩
    rw [e]
    show (do
      let a ← (y.setData da).cloneToMut dflt
      let x ← (x.setData db).cloneToMut dflt
      return (a, _, x)) = _
    rw [p1, q1]
    rfl

theorem ndim_len {l : Layout} {s : List Nat} (h : l.shape = s) : l.ndim = s.length := by
  rw [← h]; simp [Layout.ndim, Layout.shape]

/-- How the argument `b` is found after the call: overwritten with the result where it may be. -/
structure ResultIn (b : TRef α) (x : Tensor α) : Prop where
  same : b.mutable = true → x.layout = b.t.layout
  cells : b.mutable = true → ChangedOnly (Addressed b.t.layout.stride b.t.layout.offset b.t.layout.shape) b.t.data x.data

/-- How an argument that is not the result is found after the call. -/
structure Spent (a : TRef α) (a' : Tensor α) : Prop where
  kept : a.mutable = false → a' = a.t
  same : a'.layout = a.t.layout
  cells : ChangedOnly (fun k => a.mutable = true ∧ Addressed a.t.layout.stride a.t.layout.offset a.t.layout.shape k) a.t.data a'.data

theorem Leaves.spent {a : TRef α} {x : Mutable α} {m n : Nat} {M : Matrix (Fin m) (Fin n) α} (h : Leaves a x M) : Spent a (a.after x) := by
  unfold TRef.after
  by_cases hm : a.mutable = true
  · obtain ⟨d, rfl, h2⟩ := h.shared hm
    refine ⟨by simp [hm], by simp [hm], ?_⟩
    simp only [hm, if_true]
    exact ⟨h2.1, fun k hk => h2.2 k fun hk' => hk ⟨trivial, hk'⟩⟩
  · have hm : a.mutable = false := by simpa using hm
    refine ⟨by simp [hm], by simp [hm], ?_⟩
    simp only [hm]
    exact ⟨rfl, fun _ _ => rfl⟩

/-- The result for a matrix on the right. -/
theorem finish_mat (dflt : Order) {b : TRef α} {x : Mutable α} {m n : Nat} {X : Matrix (Fin m) (Fin n) α} (h : Leaves b x X) :
    (b.mutable = true → (b.after x).WF ∧ (b.after x).arr.IsMat X ∧ ResultIn b (b.after x)) ∧
    (b.mutable = false → ∃ y, fromColumns dflt false x = .ok y ∧ y.WF ∧ y.arr.IsMat X ∧ ResultIn b y) := by
  constructor
  · intro hm
    obtain ⟨d, rfl, h2⟩ := h.shared hm
    unfold TRef.after
    simp only [hm, if_true]
    exact ⟨h.wf, h.mat, fun _ => rfl, fun _ => h2⟩
  · intro hm
    obtain ⟨t, rfl⟩ := h.owned hm
    exact ⟨t, rfl, h.wf, h.mat, by simp [hm], by simp [hm]⟩

/-- The result for a vector on the right. -/
theorem column_ok (b : TRef α) (hb : b.Ok) {n : Nat} {v : Fin n → α} (hv : b.t.arr.IsVec v) :
    ∃ c, asColumns b = .ok c ∧ c.Ok ∧ c.mutable = b.mutable ∧ c.t.data = b.t.data ∧ c.t.arr.IsMat (Matrix.of fun i (_ : Fin 1) => v i) ∧
      ∀ i, i < n → c.t.layout.pos [i, 0] = b.t.layout.pos [i] ∧ c.t.layout.addr [i, 0] = b.t.layout.addr [i] := by
  have hs : b.t.layout.shape = [n] := hv.1
  obtain ⟨s, hax⟩ : ∃ s, b.t.layout.axes = [⟨n, s⟩] := by
    have hs : b.t.layout.axes.map (·.dim) = [n] := hs
    match e : b.t.layout.axes, hs with
    | [⟨d, s⟩], hs =>
      simp only [List.map_cons, List.map_nil, List.cons.injEq, and_true] at hs
      subst hs
      exact ⟨s, rfl⟩
  obtain ⟨t, t1, t2, t3⟩ := column_layout hb.wf.fit.valid hb.wf.1 hax hs
  have had : ∀ i : Nat, (⟨[⟨n, s⟩, ⟨1, t⟩], b.t.layout.offset⟩ : Layout).addr [i, 0] = b.t.layout.addr [i] := by
    intro i
    rw [addr_mk, addr_eq, hax]
    simp [dot]
  have hpo : ∀ i : Nat, (⟨[⟨n, s⟩, ⟨1, t⟩], b.t.layout.offset⟩ : Layout).pos [i, 0] = b.t.layout.pos [i] := fun i => by
    unfold Layout.pos; rw [had]
  have hw : (⟨b.t.data, ⟨[⟨n, s⟩, ⟨1, t⟩], b.t.layout.offset⟩⟩ : Tensor α).WF := by
    refine wf_of_sub hb.wf t3 ?_ hb.wf.1 (fun _ => ?_)
    · intro j hj
      obtain ⟨i, k, rfl, h1, h2⟩ := of_inRange2 (m := n) (n := 1) hj
      have : k = 0 := by omega
      subst this
      exact ⟨[i], by rw [hs]; simpa [InRange] using h1, had i⟩
    · obtain ⟨-, -, -, -, h⟩ := WF_bounds hb.wf
      exact h
  refine ⟨⟨⟨b.t.data, ⟨[⟨n, s⟩, ⟨1, t⟩], b.t.layout.offset⟩⟩, b.mutable⟩, ?_, ⟨hw, fun hm => ?_⟩, rfl, rfl, ⟨rfl, fun i j => ?_⟩, fun i hi => ⟨hpo i, had i⟩⟩
  · unfold asColumns
    have h1 : b.t.layout.ndim = 1 := ndim_len (s := [n]) hs
    rw [if_pos h1]
    rw [t1]
    rfl
  · have hst : b.t.layout.stride = [s] := by simp [Layout.stride, hax]
    rcases hb.writable hm with this | this
    · rw [hst] at this
      simp only [List.mem_singleton] at this
      have h2 := t2 (fun e => this e.symm)
      left
      simp only [Layout.stride, List.map_cons, List.map_nil, List.mem_cons, List.not_mem_nil, or_false, not_or]
      exact ⟨this, fun e => h2 e.symm⟩
    · right
      rw [hs] at this
      simp only [List.mem_singleton] at this
      simp [Layout.shape, ← this]
  · have e := hv.2 i
    rw [elem_pos (s := [n]) (hs ▸ hb.wf.fit) (by simp [InRange])] at e
    have hj : (j : Nat) = 0 := by omega
    rw [hj, elem_pos (s := [n, 1]) ⟨hw.fit.valid, hw.1, rfl⟩ (inRange2.2 ⟨i.2, by omega⟩)]
    show b.t.data[(⟨[⟨n, s⟩, ⟨1, t⟩], b.t.layout.offset⟩ : Layout).pos _]? = _
    rw [hpo, e]; rfl

theorem subst_minus_one (n : Nat) : substituteNegatives [-1] n = .ok [n] := by
  simp [substituteNegatives, findNeg]

/-- A tensor of one column as a vector. -/
theorem fromColumns_vec (dflt : Order) {x : Tensor α} (hx : x.WF) {n : Nat} {X : Matrix (Fin n) (Fin 1) α} (hX : x.arr.IsMat X) :
    ∃ y, fromColumns dflt true (.owned x) = .ok y ∧ y.WF ∧ y.arr.IsVec fun i => X i 0 := by
  have hp : x.arr.shape.prod = [n].prod := by rw [hX.1]; simp
  obtain ⟨c, c1, c2, c3, c4⟩ := C21_reshape x hx [n] dflt none (by simp) hp
  have e : Tensor.changeShape x [-1] dflt none = Tensor.changeShape x ([n].map Int.ofNat) dflt none := by
    unfold Tensor.changeShape
    have h1 : x.layout.size = n := by
      have e : x.layout.shape = [n, 1] := hX.1
      simp [Layout.size, e]
    rw [h1, subst_minus_one, subst_self]
  obtain ⟨y, y1, y2, y3, -⟩ := C35_into_owned dflt c c2
  refine ⟨y, ?_, y2, y3.1.trans c3, fun i => ?_⟩
  · unfold fromColumns
    simp only [Mutable.intoOwned, orPanic, ok_bind, if_true, e, c1, y1]
  · obtain ⟨u, u1, u2⟩ := c4.2 [(i : Nat), 0] [(i : Nat)] (by rw [hX.1]; simp [InRange]) (by rw [c3]; simp [InRange])
      (by rw [hX.1, c3]; cases dflt <;> simp [rank, rankF, rankC])
    obtain ⟨w, w1, w2⟩ := y3.2 [(i : Nat)] (by rw [c3]; simp [InRange])
    have := hX.2 i 0
    rw [w2, ← w1, u2, ← u1]
    exact this

/-! ## The arguments of the solvers -/

theorem asColumns_mat {b : TRef α} {n m : Nat} {B : Matrix (Fin n) (Fin m) α} (hB : b.t.arr.IsMat B) : asColumns b = .ok b := by
  have nb : b.t.layout.ndim = 2 := ndim_len (s := [n, m]) hB.1
  unfold asColumns; rw [if_neg (by omega)]

/-- A matrix on the right. -/
theorem solveWith_mat {ref : TRef α → TRef α → Res (Tensor α × Mutable α)} (dflt : Order) {a b : TRef α} {n m k : Nat}
    {A : Matrix (Fin k) (Fin n) α} {B X : Matrix (Fin n) (Fin m) α} (hA : a.t.arr.IsMat A) (hB : b.t.arr.IsMat B) {a' : Tensor α} {x : Mutable α}
    (h : ref a b = .ok (a', x)) (hx : Leaves b x X) (hc : x.cloneToMut dflt = .ok x) :
    ∃ y, solveWith ref dflt a b = .ok (a', y) ∧ y.WF ∧ y.arr.IsMat X ∧ ResultIn b y := by
  have na : a.t.layout.ndim = 2 := ndim_len (s := [k, n]) hA.1
  have nb : b.t.layout.ndim = 2 := ndim_len (s := [n, m]) hB.1
  obtain ⟨f1, f2⟩ := finish_mat dflt hx
  unfold solveWith
  simp only [na, nb, asColumns_mat hB, ok_bind, h, hc]
  by_cases hmut : b.mutable = true
  · exact ⟨b.after x, by simp [hmut, pure, Except.pure], f1 hmut⟩
  · obtain ⟨y, k0, k1⟩ := f2 (by simpa using hmut)
    exact ⟨y, by simp [hmut, k0, pure, Except.pure, ok_bind], k1⟩

/-- A vector on the right. -/
theorem solveWith_vec {ref : TRef α → TRef α → Res (Tensor α × Mutable α)} (dflt : Order) {a b c : TRef α} (hb : b.Ok) {n k : Nat}
    {A : Matrix (Fin k) (Fin n) α} {v : Fin n → α} {X : Matrix (Fin n) (Fin 1) α} (hA : a.t.arr.IsMat A) (hv : b.t.arr.IsVec v)
    (c1 : asColumns b = .ok c) (c3 : c.mutable = b.mutable) (c4 : c.t.data = b.t.data) (cs : c.t.layout.shape = [n, 1])
    (c6 : ∀ i, i < n → c.t.layout.pos [i, 0] = b.t.layout.pos [i] ∧ c.t.layout.addr [i, 0] = b.t.layout.addr [i])
    {a' : Tensor α} {x : Mutable α} (h : ref a c = .ok (a', x)) (g3 : Leaves c x X) (g4 : x.cloneToMut dflt = .ok x) :
    ∃ y, solveWith ref dflt a b = .ok (a', y) ∧ y.WF ∧ y.arr.IsVec (fun i => X i 0) ∧ ResultIn b y := by
  have na : a.t.layout.ndim = 2 := ndim_len (s := [k, n]) hA.1
  have nb : b.t.layout.ndim = 1 := ndim_len (s := [n]) hv.1
  have hs : b.t.layout.shape = [n] := hv.1
  unfold solveWith
  simp only [na, nb, c1, ok_bind, h, g4]
  by_cases hmut : b.mutable = true
  · obtain ⟨d, hd, h4⟩ := g3.shared (c3.trans hmut)
    subst hd
    have hlen : d.length = b.t.data.length := by rw [h4.1, c4]
    have hw : (⟨d, b.t.layout⟩ : Tensor α).WF := hb.wf.of_data hlen
    refine ⟨⟨d, b.t.layout⟩, ?_, hw, ⟨hs, fun i => ?_⟩, ⟨fun _ => rfl, fun _ => ⟨hlen, fun k hk => ?_⟩⟩⟩
    · simp [hmut, pure, Except.pure, TRef.after, Mutable.view]
    · have h5 := g3.mat.2 i 0
      have hf : Fit [n, 1] c.t.layout := ⟨g3.wf.fit.valid, g3.wf.1, cs⟩
      simp only [Mutable.view] at h5
      rw [show (((0 : Fin 1) : Fin 1) : Nat) = 0 from rfl, elem_pos hf (inRange2.2 ⟨i.2, by omega⟩), (c6 i i.2).1] at h5
      rw [elem_pos (s := [n]) (hs ▸ hb.wf.fit) (by simp [InRange])]
      exact h5
    · have := h4.2 k fun ⟨idx, hi, e⟩ => hk ?_
      · rw [c4] at this; exact this
      · rw [cs] at hi
        obtain ⟨i, j, rfl, h6, h7⟩ := of_inRange2 hi
        have : j = 0 := by omega
        subst this
        refine ⟨[i], by rw [hs]; simpa [InRange] using h6, ?_⟩
        exact ((c6 i h6).2.symm.trans e)
  · have hmf : b.mutable = false := by simpa using hmut
    obtain ⟨t, rfl⟩ := g3.owned (c3.trans hmf)
    obtain ⟨y, y1, y2, y3⟩ := fromColumns_vec dflt (x := t) g3.wf g3.mat
    refine ⟨y, ?_, y2, y3, ⟨by simp [hmf], by simp [hmf]⟩⟩
    rw [if_neg (by omega), if_neg (by omega)]
    simp only [hmf]
    show (do return (a', ← fromColumns dflt true (.owned t))) = _
    rw [y1]
    rfl

/-- An error of the computation is an error of the function. -/
theorem solveWith_err {ref : TRef α → TRef α → Res (Tensor α × Mutable α)} (dflt : Order) {a b c : TRef α} (na : a.t.layout.ndim = 2)
    (nb : ¬ (b.t.layout.ndim < 1 ∨ 2 < b.t.layout.ndim)) (hc : asColumns b = .ok c) {e : Err} (h : ref a c = .error e) :
    solveWith ref dflt a b = .error e := by
  unfold solveWith
  rw [if_neg (by omega), if_neg nb]
  simp only [hc, ok_bind, h]
  rfl

theorem mulVec_of_mul [Field α] {n : Nat} {A : Matrix (Fin n) (Fin n) α} {X : Matrix (Fin n) (Fin 1) α} {v : Fin n → α}
    (h : A * X = Matrix.of fun i (_ : Fin 1) => v i) : A.mulVec (fun i => X i 0) = v := by
  funext i
  have := congrFun (congrFun h i) 0
  simpa [Matrix.mul_apply, Matrix.mulVec, dotProduct] using this

/-! ## The property -/

theorem refSolve_ok (lib : Lapack α) (dflt : Order) {a b : TRef α} (ha : a.Ok) (hb : b.Ok) {n m : Nat}
    {A F : Matrix (Fin n) (Fin n) α} {B X : Matrix (Fin n) (Fin m) α} (hA : a.t.arr.IsMat A) (hB : b.t.arr.IsMat B) {p : Fin n → Int}
    (h : lib.gesv n m A B = .ok (F, p, X)) :
    ∃ a' x, refSolveGeneral lib dflt a b = .ok (a', x) ∧ Spent a a' ∧ Leaves b x X ∧ x.cloneToMut dflt = .ok x := by
  obtain ⟨a', x, g1, g2, g3, g4⟩ := (gesvRun_ok lib dflt ha hb hA hB).2 F p X h
  refine ⟨a.after a', x, ?_, g2.spent, g3, g4⟩
  unfold refSolveGeneral
  simp only [g1, ok_bind, g4]
  rfl

/-- Solving `A X = B` with a matrix on the right: for a nonsingular `A` the result is the solution, whatever the layouts,
offsets and orders of the arguments. A mutable `b` holds the result in the cells it addresses and no other cell changes; a shared
argument is not written. -/
theorem C68_matrix [Field α] (lib : Lapack α) (hl : GesvDoc lib.gesv) (dflt : Order) (a b : TRef α) (ha : a.Ok) (hb : b.Ok)
    {n m : Nat} (A : Matrix (Fin n) (Fin n) α) (B : Matrix (Fin n) (Fin m) α) (hA : a.t.arr.IsMat A)
    (hB : b.t.arr.IsMat B) (hdet : A.det ≠ 0) :
    ∃ a' x X, solveGeneral lib dflt a b = .ok (a', x) ∧ x.WF ∧ x.arr.IsMat X ∧ A * X = B ∧ ResultIn b x ∧ Spent a a' := by
  obtain ⟨F, p, X, h1, h2⟩ := hl.solves n m A B hdet
  obtain ⟨a', x, g1, g2, g3, g4⟩ := refSolve_ok lib dflt ha hb hA hB h1
  obtain ⟨y, y1, y2, y3, y4⟩ := solveWith_mat dflt hA hB g1 g3 g4
  exact ⟨a', y, X, y1, y2, y3, h2, y4, g2⟩

/-- Solving `A x = b` with a vector on the right. -/
theorem C68_vector [Field α] (lib : Lapack α) (hl : GesvDoc lib.gesv) (dflt : Order) (a b : TRef α) (ha : a.Ok) (hb : b.Ok)
    {n : Nat} (A : Matrix (Fin n) (Fin n) α) (v : Fin n → α) (hA : a.t.arr.IsMat A)
    (hv : b.t.arr.IsVec v) (hdet : A.det ≠ 0) :
    ∃ a' x u, solveGeneral lib dflt a b = .ok (a', x) ∧ x.WF ∧ x.arr.IsVec u ∧ A.mulVec u = v ∧ ResultIn b x ∧ Spent a a' := by
  obtain ⟨c, c1, c2, c3, c4, c5, c6⟩ := column_ok b hb hv
  obtain ⟨F, p, X, h1, h2⟩ := hl.solves n 1 A _ hdet
  obtain ⟨a', x, g1, g2, g3, g4⟩ := refSolve_ok lib dflt ha c2 hA c5 h1
  obtain ⟨y, y1, y2, y3, y4⟩ := solveWith_vec dflt hb hA hv c1 c3 c4 c5.1 c6 g1 g3 g4
  exact ⟨a', y, _, y1, y2, y3, mulVec_of_mul h2, y4, g2⟩

/-- A singular matrix is an error that carries the number reported by the library. -/
theorem C68_singular [Field α] (lib : Lapack α) (hl : GesvDoc lib.gesv) (dflt : Order) (a b : TRef α) (ha : a.Ok) (hb : b.Ok)
    {n m : Nat} (A : Matrix (Fin n) (Fin n) α) (B : Matrix (Fin n) (Fin m) α) (hA : a.t.arr.IsMat A)
    (hB : b.t.arr.IsMat B) (hdet : A.det = 0) : ∃ info, 0 < info ∧ solveGeneral lib dflt a b = .error (.errorCode info) := by
  obtain ⟨info, h0, h1⟩ := hl.singular n m A B hdet
  have g1 := (gesvRun_ok lib dflt ha hb hA hB).1 info h1
  have nb : b.t.layout.ndim = 2 := ndim_len (s := [n, m]) hB.1
  refine ⟨info, h0, solveWith_err dflt (ndim_len (s := [n, n]) hA.1) (by omega) (asColumns_mat hB) ?_⟩
  unfold refSolveGeneral
  rw [g1]; rfl

/-- The same with a vector on the right. -/
theorem C68_singular_vector [Field α] (lib : Lapack α) (hl : GesvDoc lib.gesv) (dflt : Order) (a b : TRef α) (ha : a.Ok) (hb : b.Ok)
    {n : Nat} (A : Matrix (Fin n) (Fin n) α) (v : Fin n → α) (hA : a.t.arr.IsMat A)
    (hv : b.t.arr.IsVec v) (hdet : A.det = 0) : ∃ info, 0 < info ∧ solveGeneral lib dflt a b = .error (.errorCode info) := by
  obtain ⟨c, c1, c2, -, -, c5, -⟩ := column_ok b hb hv
  obtain ⟨info, h0, h1⟩ := hl.singular n 1 A _ hdet
  have g1 := (gesvRun_ok lib dflt ha c2 hA c5).1 info h1
  have nb : b.t.layout.ndim = 1 := ndim_len (s := [n]) hv.1
  refine ⟨info, h0, solveWith_err dflt (ndim_len (s := [n, n]) hA.1) (by omega) c1 ?_⟩
  unfold refSolveGeneral
  rw [g1]; rfl

theorem gesvRun_reject (lib : Lapack α) (dflt : Order) {a b : TRef α} (ha : a.Ok) (hb : b.Ok) {r c n m : Nat}
    {A : Matrix (Fin r) (Fin c) α} {B : Matrix (Fin n) (Fin m) α} (hA : a.t.arr.IsMat A)
    (hB : b.t.arr.IsMat B) (h : [r, c] ≠ [n, n]) : gesvRun lib dflt a b = .error .invalidLayout := by
  obtain ⟨x, x1, x2, x3⟩ := convert_ok dflt hb hB
  obtain ⟨y, y1, y2, y3⟩ := convertOrder_ok dflt ha hA (storageOrder x.view.layout)
  have hx : x.view.layout.shape = [n, m] := x2.mat.1
  have hy : y.view.layout.shape = [r, c] := y2.mat.1
  obtain ⟨d0, d1⟩ := dimAt2 hx
  unfold gesvRun
  simp only [x1, ok_bind, y1, d0, d1, hy, ne_eq, h, not_false_eq_true, if_true]

theorem exists_isMat {t : Tensor α} (ht : t.WF) {m n : Nat} (h : t.arr.shape = [m, n]) : ∃ M : Matrix (Fin m) (Fin n) α, t.arr.IsMat M := by
  have : ∀ (i : Fin m) (j : Fin n), ∃ x, t.arr.elem [(i : Nat), (j : Nat)] = some x := fun i j => by
    obtain ⟨x, -, h2⟩ := ht.get (idx := [(i : Nat), (j : Nat)]) (by
      show InRange _ t.arr.shape
      rw [h]; exact inRange2.2 ⟨i.2, j.2⟩)
    exact ⟨x, h2⟩
  choose f hf using this
  exact ⟨f, h, hf⟩

theorem exists_isVec {t : Tensor α} (ht : t.WF) {n : Nat} (h : t.arr.shape = [n]) : ∃ v : Fin n → α, t.arr.IsVec v := by
  have : ∀ (i : Fin n), ∃ x, t.arr.elem [(i : Nat)] = some x := fun i => by
    obtain ⟨x, -, h2⟩ := ht.get (idx := [(i : Nat)]) (by
      show InRange _ t.arr.shape
      rw [h]; simp [InRange])
    exact ⟨x, h2⟩
  choose f hf using this
  exact ⟨f, h, hf⟩

theorem solveWith_reject {ref : TRef α → TRef α → Res (Tensor α × Mutable α)} (dflt : Order) {a b : TRef α} (ha : a.t.WF) (hb : b.Ok)
    (hr : ∀ {b : TRef α}, b.Ok → ∀ {r c n m : Nat} {A : Matrix (Fin r) (Fin c) α} {B : Matrix (Fin n) (Fin m) α},
      a.t.arr.IsMat A → b.t.arr.IsMat B → [r, c] ≠ [n, n] → ref a b = .error .invalidLayout)
    (h : SolveMisfit a.t.arr.shape b.t.arr.shape) : solveWith ref dflt a b = .error .invalidLayout := by
  have la : a.t.arr.shape.length = a.t.layout.ndim := by
    show a.t.layout.shape.length = _
    simp [Layout.shape, Layout.ndim]
  have lb : b.t.arr.shape.length = b.t.layout.ndim := by
    show b.t.layout.shape.length = _
    simp [Layout.shape, Layout.ndim]
  unfold SolveMisfit at h
  rw [la, lb] at h
  by_cases h1 : a.t.layout.ndim = 2
  · by_cases h2 : b.t.layout.ndim < 1 ∨ 2 < b.t.layout.ndim
    · unfold solveWith
      rw [if_neg (by omega), if_pos h2]
    · rcases h with h | h | ⟨n, hn, hne⟩
      · omega
      · omega
      · have h1' : a.t.arr.shape.length = 2 := la.trans h1
        obtain ⟨r, c, hrc⟩ := List.length_eq_two.1 h1'
        obtain ⟨A, hA⟩ := exists_isMat ha hrc
        rw [hrc] at hne
        have : ∃ cb, asColumns b = .ok cb ∧ ref a cb = .error .invalidLayout := by
          by_cases h3 : b.t.layout.ndim = 1
          · obtain ⟨k, hk⟩ := List.length_eq_one_iff.1 (lb.trans h3)
            have : k = n := by rw [hk] at hn; simpa using hn
            subst this
            obtain ⟨v, hv⟩ := exists_isVec hb.wf hk
            obtain ⟨cb, c1, c2, -, -, c5, -⟩ := column_ok b hb hv
            exact ⟨cb, c1, hr c2 hA c5 hne⟩
          · obtain ⟨k, q, hk⟩ := List.length_eq_two.1 (lb.trans (by omega))
            have : k = n := by rw [hk] at hn; simpa using hn
            subst this
            obtain ⟨B, hB⟩ := exists_isMat hb.wf hk
            exact ⟨b, by unfold asColumns; rw [if_neg h3], hr hb hA hB hne⟩
        obtain ⟨cb, e1, e2⟩ := this
        exact solveWith_err dflt h1 h2 e1 e2
  · unfold solveWith
    rw [if_pos h1]

/-- Shapes that do not fit are an error. -/
theorem C68_reject (lib : Lapack α) (dflt : Order) (a b : TRef α) (ha : a.Ok) (hb : b.Ok) (h : SolveMisfit a.t.arr.shape b.t.arr.shape) :
    solveGeneral lib dflt a b = .error .invalidLayout := by
  refine solveWith_reject dflt ha.wf hb ?_ h
  intro b hb r c n m A B hA hB hne
  unfold refSolveGeneral
  rw [gesvRun_reject lib dflt ha hb hA hB hne]
  rfl

/-! ## Cases that meet the hypotheses -/

/-- Arithmetic that meets the documentation of `gesv` exists: Cramer's rule. -/
noncomputable def cramerLib (α : Type) [Field α] [DecidableEq α] : Lapack α where
  gesv n m A B := if A.det = 0 then .error 1 else .ok (A, fun i => i + 1, A⁻¹ * B)

theorem cramer_doc (α : Type) [Field α] [DecidableEq α] : GesvDoc (cramerLib α).gesv := by
  refine ⟨fun n m A B h => ⟨A, _, _, if_neg h, ?_⟩, fun n m A B h => ⟨1, by omega, if_pos h⟩⟩
  rw [← Matrix.mul_assoc, Matrix.mul_nonsing_inv A (by simpa using h), Matrix.one_mul]

/-- A two-by-two window of a row-major matrix with three columns, starting at the second cell. -/
def sysA : TRef ℚ := ⟨⟨[9, 2, 1, 9, 1, 1, 9], ⟨[⟨2, 3⟩, ⟨2, 1⟩], 1⟩⟩, true⟩
/-- The same matrix, not contiguous in any order: strides 4 and 2. -/
def sysA' : TRef ℚ := ⟨⟨[2, 8, 1, 8, 1, 8, 1], ⟨[⟨2, 4⟩, ⟨2, 2⟩], 0⟩⟩, true⟩
/-- Two right-hand sides, stored backwards. -/
def sysB : TRef ℚ := ⟨⟨[7, 2, 1, 5, 3], ⟨[⟨2, -2⟩, ⟨2, -1⟩], 4⟩⟩, true⟩
/-- One right-hand side, every other cell. -/
def sysV : TRef ℚ := ⟨⟨[3, 7, 2], ⟨[⟨2, 2⟩], 0⟩⟩, false⟩

theorem sysA_ok : sysA.Ok ∧ sysA'.Ok ∧ sysB.Ok ∧ sysV.Ok :=
  ⟨⟨⟨by decide, rfl⟩, fun _ => by decide⟩, ⟨⟨by decide, rfl⟩, fun _ => by decide⟩, ⟨⟨by decide, rfl⟩, fun _ => by decide⟩,
    ⟨⟨by decide, rfl⟩, fun h => by simp [sysV] at h⟩⟩

theorem sys_mat : sysA.t.arr.IsMat !![2, 1; 1, 1] ∧ sysA'.t.arr.IsMat !![2, 1; 1, 1] ∧ sysB.t.arr.IsMat !![3, 5; 1, 2] ∧
    sysV.t.arr.IsVec ![3, 2] := by
  refine ⟨⟨rfl, ?_⟩, ⟨rfl, ?_⟩, ⟨rfl, ?_⟩, ⟨rfl, ?_⟩⟩ <;> decide

theorem sys_det : (!![2, 1; 1, 1] : Matrix (Fin 2) (Fin 2) ℚ).det ≠ 0 := by simp [Matrix.det_fin_two]; norm_num

example := C68_matrix (cramerLib ℚ) (cramer_doc ℚ) .C sysA sysB sysA_ok.1 sysA_ok.2.2.1 _ _ sys_mat.1 sys_mat.2.2.1 sys_det
example := C68_matrix (cramerLib ℚ) (cramer_doc ℚ) .F sysA' sysB sysA_ok.2.1 sysA_ok.2.2.1 _ _ sys_mat.2.1 sys_mat.2.2.1 sys_det
example := C68_vector (cramerLib ℚ) (cramer_doc ℚ) .C sysA' sysV sysA_ok.2.1 sysA_ok.2.2.2 _ _ sys_mat.2.1 sys_mat.2.2.2 sys_det

/-- The driver forms a slice that reaches beyond the storage: a window of a row-major matrix that ends with the last cell. -/
theorem C68_false_slice : ∃ (a : TRef ℚ) (ld : Int), a.Ok ∧ a.t.arr.IsMat (!![2, 1; 1, 1] : Matrix (Fin 2) (Fin 2) ℚ) ∧
    (∃ x, overwritableConvertWithOrder .C a .C = .ok x ∧ x.view = a.t) ∧ ldUnwrap a.t.layout .C = .ok ld ∧
    (a.t.data.length : Int) < driverSliceEnd a.t.layout.offset ld 2 :=
  ⟨⟨⟨[9, 2, 1, 9, 1, 1], ⟨[⟨2, 3⟩, ⟨2, 1⟩], 1⟩⟩, true⟩, 3, ⟨⟨by decide, rfl⟩, fun _ => by decide⟩, ⟨rfl, by decide⟩,
    ⟨_, rfl, rfl⟩, rfl, by decide⟩

/-- No equations: no solutions to compute, or a matrix without columns on the right. -/
def sysE : TRef ℚ := ⟨⟨[5], ⟨[⟨0, 0⟩, ⟨0, 1⟩], 1⟩⟩, true⟩
def sysE' : TRef ℚ := ⟨⟨[5], ⟨[⟨0, 3⟩, ⟨3, 1⟩], 0⟩⟩, false⟩
def sysN : TRef ℚ := ⟨⟨[], ⟨[⟨2, 0⟩, ⟨0, 1⟩], 0⟩⟩, true⟩
example := C68_matrix (cramerLib ℚ) (cramer_doc ℚ) .F sysE sysE' ⟨⟨by decide, rfl⟩, fun _ => by decide⟩ ⟨⟨by decide, rfl⟩, fun h => by simp [sysE'] at h⟩
  (n := 0) (m := 3) 1 0 ⟨rfl, fun i => i.elim0⟩ ⟨rfl, fun i => i.elim0⟩ (by simp)
example := C68_matrix (cramerLib ℚ) (cramer_doc ℚ) .C sysA sysN sysA_ok.1 ⟨⟨by decide, rfl⟩, fun _ => by decide⟩ (m := 0) _ 0 sys_mat.1
  ⟨rfl, fun _ j => j.elim0⟩ sys_det

/-- A singular system. -/
def sysS : TRef ℚ := ⟨⟨[1, 2, 2, 4], ⟨[⟨2, 2⟩, ⟨2, 1⟩], 0⟩⟩, false⟩
example := C68_singular (cramerLib ℚ) (cramer_doc ℚ) .C sysS sysB ⟨⟨by decide, rfl⟩, fun h => by simp [sysS] at h⟩ sysA_ok.2.2.1
  !![1, 2; 2, 4] _ ⟨rfl, by decide⟩ sys_mat.2.2.1 (by simp [Matrix.det_fin_two]; norm_num)
example := C68_singular_vector (cramerLib ℚ) (cramer_doc ℚ) .C sysS sysV ⟨⟨by decide, rfl⟩, fun h => by simp [sysS] at h⟩ sysA_ok.2.2.2
  !![1, 2; 2, 4] _ ⟨rfl, by decide⟩ sys_mat.2.2.2 (by simp [Matrix.det_fin_two]; norm_num)
example := C68_reject (cramerLib ℚ) .C sysA ⟨⟨[1, 2, 3], ⟨[⟨3, 1⟩], 0⟩⟩, true⟩ sysA_ok.1 ⟨⟨by decide, rfl⟩, fun _ => by decide⟩
  (.inr (.inr ⟨3, by decide, by decide⟩))

end
end Rstsr
