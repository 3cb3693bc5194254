import Verif.Model.Transpose
import Verif.Thm.Tri
/-!
# C49: the blocked change of storage order copies every element
-/
namespace Rstsr
open Spec

section
variable {γ : Type}

theorem mem_blockOf {n s j : Nat} : j ∈ blockOf n s ↔ s ≤ j ∧ j < s + blockSize ∧ j < n := by
  unfold blockOf
  rw [List.mem_range'_1]
  omega

theorem mem_blockStarts {n s : Nat} : s ∈ blockStarts n ↔ ∃ k, s = blockSize * k ∧ s < n := by
  unfold blockStarts blockSize
  simp only [List.mem_map, List.mem_range]
  constructor
  · rintro ⟨k, h, rfl⟩
    exact ⟨k, rfl, by omega⟩
  · rintro ⟨k, rfl, h⟩
    exact ⟨k, by omega, rfl⟩

theorem nodup_blockStarts (n : Nat) : (blockStarts n).Nodup := by
  unfold blockStarts
  exact List.nodup_range.map fun a b h => by unfold blockSize at h; simp at h; omega

theorem nodup_blockOf (n s : Nat) : (blockOf n s).Nodup := List.nodup_range'

/-- The indices in the order the loops visit them. -/
def blockCells (m n : Nat) : List (List Nat) :=
  (blockStarts n).flatMap fun js => (blockStarts m).flatMap fun is =>
    (blockOf n js).flatMap fun j => (blockOf m is).flatMap fun i => [[i, j]]

theorem mem_blockCells {m n : Nat} {p : List Nat} : p ∈ blockCells m n ↔ InRange p [m, n] := by
  unfold blockCells
  simp only [List.mem_flatMap, List.mem_singleton, mem_blockStarts, mem_blockOf]
  constructor
  · rintro ⟨js, -, is, -, j, hj, i, hi, rfl⟩
    exact inRange_pair.2 ⟨hi.2.2, hj.2.2⟩
  · intro h
    have hl := h.length_eq
    match p, hl with
    | [i, j], _ =>
      obtain ⟨hi, hj⟩ := inRange_pair.1 h
      unfold blockSize
      exact ⟨64 * (j / 64), ⟨_, rfl, by omega⟩, 64 * (i / 64), ⟨_, rfl, by omega⟩, j, by omega, i, by omega, rfl⟩

theorem nodup_blockCells (m n : Nat) : (blockCells m n).Nodup := by
  unfold blockCells
  refine List.nodup_flatMap.2 ⟨fun js hjs => List.nodup_flatMap.2 ⟨fun is his => List.nodup_flatMap.2 ⟨fun j _ =>
    List.nodup_flatMap.2 ⟨fun i _ => List.nodup_singleton _, ?_⟩, ?_⟩, ?_⟩, ?_⟩
  · refine (nodup_blockOf _ _).imp fun hne => ?_
    simp [Function.onFun]; omega
  · refine (nodup_blockOf _ _).imp fun hne => ?_
    simp only [Function.onFun]
    intro p h1 h2
    simp only [List.mem_flatMap, List.mem_singleton] at h1 h2
    obtain ⟨i, -, rfl⟩ := h1
    obtain ⟨i', -, e⟩ := h2
    simp only [List.cons.injEq, and_true] at e
    exact hne e.2
  · refine (nodup_blockStarts m).pairwise_of_forall_ne ?_
    intro is his is' his' hne
    simp only [Function.onFun]
    intro p h1 h2
    simp only [List.mem_flatMap, List.mem_singleton, mem_blockOf] at h1 h2
    obtain ⟨j, -, i, hi, rfl⟩ := h1
    obtain ⟨j', -, i', hi', e⟩ := h2
    simp only [List.cons.injEq, and_true] at e
    obtain ⟨k, rfl, -⟩ := mem_blockStarts.1 his
    obtain ⟨k', rfl, -⟩ := mem_blockStarts.1 his'
    unfold blockSize at *
    omega
  · refine (nodup_blockStarts n).pairwise_of_forall_ne ?_
    intro js hjs js' hjs' hne
    simp only [Function.onFun]
    intro p h1 h2
    simp only [List.mem_flatMap, List.mem_singleton, mem_blockOf] at h1 h2
    obtain ⟨is, -, j, hj, i, -, rfl⟩ := h1
    obtain ⟨is', -, j', hj', i', -, e⟩ := h2
    simp only [List.cons.injEq, and_true] at e
    obtain ⟨k, rfl, -⟩ := mem_blockStarts.1 hjs
    obtain ⟨k', rfl, -⟩ := mem_blockStarts.1 hjs'
    unfold blockSize at *
    omega

theorem blockCells_perm (m n : Nat) : (blockCells m n).Perm (all .C [m, n]) :=
  (List.perm_ext_iff_of_nodup (nodup_blockCells m n) (nodup_all _ _)).2 fun p => by rw [mem_blockCells, mem_all]

theorem r2c_addr {m n : Nat} {s0 s1 off : Int} (i j : Nat) :
    (⟨[⟨m, s0⟩, ⟨n, s1⟩], off⟩ : Layout).addr [i, j] = off + (i * s0 + j * s1) := by
  rw [addr_mk]; simp [dot]

/-- The serial loops. -/
theorem orderLoop_eq {a : List γ} {m n : Nat} {lda ldc offA offC : Int}
    (fa : Fit [m, n] ⟨[⟨m, lda⟩, ⟨n, 1⟩], offA⟩) (fc : Fit [m, n] ⟨[⟨m, 1⟩, ⟨n, ldc⟩], offC⟩) (c : List γ) :
    orderLoop c a m n offA offC lda ldc = runAll (fun p c => step2 a (fun _ x => x)
      ((⟨[⟨m, 1⟩, ⟨n, ldc⟩], offC⟩ : Layout).pos p) ((⟨[⟨m, lda⟩, ⟨n, 1⟩], offA⟩ : Layout).pos p) c) (blockCells m n) c := by
  unfold orderLoop blockCells
  rw [runAll_flatMap]
  refine runAll_congr (fun js _ c => ?_) c
  rw [runAll_flatMap]
  refine runAll_congr (fun is _ c => ?_) c
  rw [runAll_flatMap]
  refine runAll_congr (fun j hj c => ?_) c
  rw [runAll_flatMap]
  refine runAll_congr (fun i hi c => ?_) c
  have hr : InRange [i, j] [m, n] := inRange_pair.2 ⟨(mem_blockOf.1 hi).2.2, (mem_blockOf.1 hj).2.2⟩
  have ea : offA + i * lda + j = (⟨[⟨m, lda⟩, ⟨n, 1⟩], offA⟩ : Layout).addr [i, j] := by rw [r2c_addr]; ring
  have ec : offC + j * ldc + i = (⟨[⟨m, 1⟩, ⟨n, ldc⟩], offC⟩ : Layout).addr [i, j] := by rw [r2c_addr]; ring
  rw [ea, ec]
  have h1 := fa.nonneg _ hr
  have h2 := fc.nonneg _ hr
  simp only [runAll, readInt, modifyInt, if_neg (not_lt.2 h1), if_neg (not_lt.2 h2), step2, Layout.pos]
  cases readAt a ((⟨[⟨m, lda⟩, ⟨n, 1⟩], offA⟩ : Layout).addr [i, j]).toNat with
  | error e => rfl
  | ok x =>
    simp only [ok_bind]
    cases modifyAt c ((⟨[⟨m, 1⟩, ⟨n, ldc⟩], offC⟩ : Layout).addr [i, j]).toNat fun _ => x <;> rfl

/-- The threads. -/
theorem orderLoopPar_ok (s : BlockPlan) {a : List γ} {m n : Nat} {lda ldc offA offC : Int}
    (fa : Fit [m, n] ⟨[⟨m, lda⟩, ⟨n, 1⟩], offA⟩) (fc : Fit [m, n] ⟨[⟨m, 1⟩, ⟨n, ldc⟩], offC⟩)
    (ca : Covers [m, n] ⟨[⟨m, lda⟩, ⟨n, 1⟩], offA⟩ a) :
    ∃ p, orderLoopPar s a m n offA offC lda ldc = .ok p ∧
      updates p = (blockCells m n).flatMap fun p => u2 a (fun (_ : γ) x => x)
        ((⟨[⟨m, 1⟩, ⟨n, ldc⟩], offC⟩ : Layout).pos p, (⟨[⟨m, lda⟩, ⟨n, 1⟩], offA⟩ : Layout).pos p) := by
  unfold orderLoopPar blockCells
  simp only [List.flatMap_assoc]
  refine parRange_ok s.outer fun js _ => parRange_ok (s.inner js) fun is _ => procLoop_ok fun j hj => procLoop_ok fun i hi => ?_
  have hr : InRange [i, j] [m, n] := inRange_pair.2 ⟨(mem_blockOf.1 hi).2.2, (mem_blockOf.1 hj).2.2⟩
  have ea : offA + i * lda + j = (⟨[⟨m, lda⟩, ⟨n, 1⟩], offA⟩ : Layout).addr [i, j] := by rw [r2c_addr]; ring
  have ec : offC + j * ldc + i = (⟨[⟨m, 1⟩, ⟨n, ldc⟩], offC⟩ : Layout).addr [i, j] := by rw [r2c_addr]; ring
  rw [ea, ec]
  obtain ⟨p, p1, p2⟩ := upd2_ok (f := fun (_ : γ) x => x) (i := (⟨[⟨m, 1⟩, ⟨n, ldc⟩], offC⟩ : Layout).pos [i, j]) (ca _ hr)
  refine ⟨p, ?_, by simpa using p2⟩
  rw [← p1]
  unfold upd2
  have h1 := fa.nonneg _ hr
  have h2 := fc.nonneg _ hr
  simp only [readInt, toUsize, if_neg (not_lt.2 h1), if_neg (not_lt.2 h2), Layout.pos]
  rfl

/-- The shape and strides the kernel asks for, and the copy it makes. -/
theorem order_serial {c a : List γ} {m n : Nat} {lda ldc offA offC : Int}
    (fa : Fit [m, n] ⟨[⟨m, lda⟩, ⟨n, 1⟩], offA⟩) (fc : Fit [m, n] ⟨[⟨m, 1⟩, ⟨n, ldc⟩], offC⟩)
    (ca : Covers [m, n] ⟨[⟨m, lda⟩, ⟨n, 1⟩], offA⟩ a) (cc : Covers [m, n] ⟨[⟨m, 1⟩, ⟨n, ldc⟩], offC⟩ c)
    (hinj : ∀ i j, InRange i [m, n] → InRange j [m, n] →
      (⟨[⟨m, 1⟩, ⟨n, ldc⟩], offC⟩ : Layout).pos i = (⟨[⟨m, 1⟩, ⟨n, ldc⟩], offC⟩ : Layout).pos j → i = j) :
    ∃ d, orderLoop c a m n offA offC lda ldc = .ok d ∧
      Writes (CopyWrites [m, n] ⟨[⟨m, 1⟩, ⟨n, ldc⟩], offC⟩ ⟨[⟨m, lda⟩, ⟨n, 1⟩], offA⟩ a id) c d := by
  rw [orderLoop_eq fa fc]
  have hlen : c.length = c.length := rfl
  obtain ⟨d, d1, d2⟩ := runAll_writes (xs := blockCells m n) (n := c.length)
    (st := fun p c => step2 a (fun _ x => x) ((⟨[⟨m, 1⟩, ⟨n, ldc⟩], offC⟩ : Layout).pos p) ((⟨[⟨m, lda⟩, ⟨n, 1⟩], offA⟩ : Layout).pos p) c)
    (fun p k v => (⟨[⟨m, 1⟩, ⟨n, ldc⟩], offC⟩ : Layout).pos p = k ∧ a[(⟨[⟨m, lda⟩, ⟨n, 1⟩], offA⟩ : Layout).pos p]? = some v)
    (fun p hp c' hc' => by
      have hr := mem_blockCells.1 hp
      obtain ⟨x, hx⟩ := ca.get hr
      obtain ⟨d, d1, d2⟩ := step2_writes hx (hc' ▸ cc _ hr) id
      refine ⟨d, d1, d2.congr fun k v => ?_⟩
      rw [hx]
      simp only [id, Option.some.injEq]
      exact ⟨fun h => ⟨h.1.symm, h.2.symm⟩, fun h => ⟨h.1.symm, h.2.symm⟩⟩)
    (fun i hi j hj k v w h1 h2 => by
      have := hinj i j (mem_blockCells.1 hi) (mem_blockCells.1 hj) (h1.1.trans h2.1.symm)
      subst this
      have := h1.2.symm.trans h2.2
      simpa using this) hlen
  refine ⟨d, d1, d2.congr fun k v => ?_⟩
  unfold CopyWrites
  constructor
  · rintro ⟨p, hp, h1, h2⟩
    exact ⟨p, mem_blockCells.1 hp, h1, v, h2, rfl⟩
  · rintro ⟨p, hp, h1, x, h2, rfl⟩
    exact ⟨p, mem_blockCells.2 hp, h1, h2⟩

theorem order_threads (s : BlockPlan) {c a : List γ} {m n : Nat} {lda ldc offA offC : Int}
    (fa : Fit [m, n] ⟨[⟨m, lda⟩, ⟨n, 1⟩], offA⟩) (fc : Fit [m, n] ⟨[⟨m, 1⟩, ⟨n, ldc⟩], offC⟩)
    (ca : Covers [m, n] ⟨[⟨m, lda⟩, ⟨n, 1⟩], offA⟩ a) (cc : Covers [m, n] ⟨[⟨m, 1⟩, ⟨n, ldc⟩], offC⟩ c)
    (hinj : ∀ i j, InRange i [m, n] → InRange j [m, n] →
      (⟨[⟨m, 1⟩, ⟨n, ldc⟩], offC⟩ : Layout).pos i = (⟨[⟨m, 1⟩, ⟨n, ldc⟩], offC⟩ : Layout).pos j → i = j)
    {d : List γ} (hd : orderLoop c a m n offA offC lda ldc = .ok d) :
    ∃ p, orderLoopPar s a m n offA offC lda ldc = .ok p ∧ Computes p c d ∧ RaceFree p c := by
  obtain ⟨p, p1, p2⟩ := orderLoopPar_ok s fa fc ca
  have hfst := u2_fst (lc := ⟨[⟨m, 1⟩, ⟨n, ldc⟩], offC⟩) (f := fun (_ : γ) x => x) ca
    (fun i (hi : i ∈ blockCells m n) => mem_blockCells.1 hi)
  rw [← p2] at hfst
  have hnd : ((updates p).map Prod.fst).Nodup := by
    rw [hfst]
    exact (nodup_blockCells m n).map_on fun i hi j hj => hinj i j (mem_blockCells.1 hi) (mem_blockCells.1 hj)
  refine ⟨p, p1, computes_of_way (way_nodup hnd ?_ ?_), raceFree_of_nodup hnd⟩
  · intro u hu
    have := List.mem_map_of_mem (f := Prod.fst) hu
    rw [hfst] at this
    obtain ⟨i, hi, e⟩ := List.mem_map.1 this
    rw [← e]; exact cc i (mem_blockCells.1 hi)
  · rw [p2, ← hd, orderLoop_eq fa fc, ← List.flatMap_map (f := fun p => ((⟨[⟨m, 1⟩, ⟨n, ldc⟩], offC⟩ : Layout).pos p, (⟨[⟨m, lda⟩, ⟨n, 1⟩], offA⟩ : Layout).pos p)) (g := u2 a fun (_ : γ) x => x), runU_zip, runAll_map]
    intro q hq
    obtain ⟨i, hi, rfl⟩ := List.mem_map.1 hq
    exact ca i (mem_blockCells.1 hi)

/-- What a change of storage order does: the serial function and the parallel ones with every division of the work
leave the storage `d`. -/
def OrderChanges (ser : Res (List γ)) (nopool : BlockPlan → Res (Work γ)) (par : Bool → BlockPlan → Res (Work γ))
    (c d : List γ) : Prop :=
  ser = .ok d ∧ (∀ s, ∃ w, nopool s = .ok w ∧ w.Leaves c d) ∧ ∀ pool s, ∃ w, par pool s = .ok w ∧ w.Leaves c d

theorem order_core {c a : List γ} {lc la : Layout} {m n : Nat} {lda ldc : Int}
    (fc : Fit [m, n] lc) (fa : Fit [m, n] la) (cc : Covers [m, n] lc c) (ca : Covers [m, n] la a)
    (sc : lc.stride = [1, ldc]) (sa : la.stride = [lda, 1])
    (hinj : ∀ i j, InRange i [m, n] → InRange j [m, n] → lc.pos i = lc.pos j → i = j) :
    ∃ d, OrderChanges (orderR2C c lc a la) (fun s => orderR2CNoPool s c lc a la) (fun pool s => orderR2CPar pool s c lc a la) c d ∧
      Writes (CopyWrites [m, n] lc la a id) c d := by
  have shape : ∀ {l : Layout} {x y : Int}, Fit [m, n] l → l.stride = [x, y] → l = ⟨[⟨m, x⟩, ⟨n, y⟩], l.offset⟩ := by
    intro l x y h1 h2
    have h3 := h1.shape
    obtain ⟨axes, off⟩ := l
    unfold Layout.stride at h2
    unfold Layout.shape at h3
    match axes, h2, h3 with
    | [p, q], h2, h3 =>
      simp only [List.map_cons, List.map_nil, List.cons.injEq, and_true] at h2 h3
      obtain ⟨pd, ps⟩ := p
      obtain ⟨qd, qs⟩ := q
      obtain ⟨rfl, rfl⟩ := h2
      obtain ⟨rfl, rfl⟩ := h3
      rfl
  obtain ⟨axc, oc⟩ := lc
  obtain ⟨axa, oa⟩ := la
  have e1 := shape fc sc
  have e2 := shape fa sa
  simp only [Layout.mk.injEq, and_true] at e1 e2
  subst e1
  subst e2
  obtain ⟨d, d1, d2⟩ := order_serial fa fc ca cc hinj
  have ser : orderR2C c ⟨[⟨m, 1⟩, ⟨n, ldc⟩], oc⟩ a ⟨[⟨m, lda⟩, ⟨n, 1⟩], oa⟩ = .ok d := by
    simp only [orderR2C, ne_eq, not_true_eq_false, if_false]
    exact d1
  have np : ∀ s, ∃ w, orderR2CNoPool s c ⟨[⟨m, 1⟩, ⟨n, ldc⟩], oc⟩ a ⟨[⟨m, lda⟩, ⟨n, 1⟩], oa⟩ = .ok w ∧ w.Leaves c d := by
    intro s
    unfold orderR2CNoPool
    split
    · rw [ser]; exact ⟨_, rfl, rfl⟩
    · simp only [ne_eq, not_true_eq_false, if_false]
      obtain ⟨p, p1, p2⟩ := order_threads s fa fc ca cc hinj d1
      rw [p1]
      exact ⟨_, rfl, p2⟩
  refine ⟨d, ⟨ser, np, ?_⟩, d2⟩
  intro pool s
  show ∃ w, orderR2CPar _ _ _ _ _ _ = _ ∧ _
  unfold orderR2CPar
  split
  · rw [ser]; exact ⟨_, rfl, rfl⟩
  · exact np s

theorem order_finish {c : Tensor γ} {a : Tensor γ} (hc : c.WF) (ha : a.WF) {m n : Nat} (sc : c.arr.shape = [m, n])
    (sa : a.arr.shape = [m, n]) {d : List γ} (h : Writes (CopyWrites [m, n] c.layout a.layout a.data id) c.data d) :
    (⟨d, c.layout⟩ : Tensor γ).WF ∧ a.arr.Same (⟨d, c.layout⟩ : Tensor γ).arr ∧
      ChangedOnly (Addressed c.layout.stride c.layout.offset c.layout.shape) c.data d := by
  have sc' : c.layout.shape = [m, n] := sc
  have sa' : a.layout.shape = [m, n] := sa
  refine ⟨hc.of_data h.len, ⟨sc.trans sa.symm, ?_⟩, changed_of (s := [m, n]) (sc' ▸ hc.fit) h.len ?_⟩
  · intro idx hi
    obtain ⟨x, h1, h2⟩ := ha.get hi
    refine ⟨x, h2, ?_⟩
    rw [elem_pos hc.fit (by rw [sc', ← sa]; exact hi)]
    exact h.set _ _ ⟨idx, by rw [← sa]; exact hi, rfl, x, h1, rfl⟩
  · intro k hk
    refine h.keep k fun v ⟨i, hi, e, _⟩ => hk i hi e

theorem Tensor.Unshared.pos {t : Tensor γ} (h : t.Unshared) (ht : t.WF) {i j : List Nat} (hi : InRange i t.arr.shape)
    (hj : InRange j t.arr.shape) (e : t.layout.pos i = t.layout.pos j) : i = j := by
  refine h i j hi hj ?_
  have h1 := ht.fit.nonneg i hi
  have h2 := ht.fit.nonneg j hj
  show t.layout.addr i = t.layout.addr j
  unfold Layout.pos at e
  omega

/-- `orderchange_out_r2c`: a row-major matrix is copied into a column-major one, whatever the leading strides and
however the sizes relate to the block, serially and on any number of threads. -/
theorem C49_row_to_col (c a : Tensor γ) (hc : c.WF) (ha : a.WF) (hu : c.Unshared) (m n : Nat) (lda ldc : Int)
    (sc : c.arr.shape = [m, n]) (sa : a.arr.shape = [m, n]) (tc : c.layout.stride = [1, ldc]) (ta : a.layout.stride = [lda, 1]) :
    ∃ d, OrderChanges (orderR2C c.data c.layout a.data a.layout) (fun s => orderR2CNoPool s c.data c.layout a.data a.layout)
        (fun pool s => orderR2CPar pool s c.data c.layout a.data a.layout) c.data d ∧
      (⟨d, c.layout⟩ : Tensor γ).WF ∧ a.arr.Same (⟨d, c.layout⟩ : Tensor γ).arr ∧
      ChangedOnly (Addressed c.layout.stride c.layout.offset c.layout.shape) c.data d := by
  have sc' : c.layout.shape = [m, n] := sc
  have sa' : a.layout.shape = [m, n] := sa
  obtain ⟨d, d1, d2⟩ := order_core (sc' ▸ hc.fit) (sa' ▸ ha.fit) (sc' ▸ hc.covers) (sa' ▸ ha.covers) tc ta
    (fun i j hi hj e => hu.pos hc (sc ▸ hi) (sc ▸ hj) e)
  exact ⟨d, d1, order_finish hc ha sc sa d2⟩

/-- `orderchange_out_c2r`: a column-major matrix is copied into a row-major one. -/
theorem C49_col_to_row (c a : Tensor γ) (hc : c.WF) (ha : a.WF) (hu : c.Unshared) (m n : Nat) (lda ldc : Int)
    (sc : c.arr.shape = [m, n]) (sa : a.arr.shape = [m, n]) (tc : c.layout.stride = [ldc, 1]) (ta : a.layout.stride = [1, lda]) :
    ∃ d, OrderChanges (orderC2R c.data c.layout a.data a.layout)
        (fun s => orderR2CNoPool s c.data c.layout.reverseAxes a.data a.layout.reverseAxes)
        (fun pool s => orderC2RPar pool s c.data c.layout a.data a.layout) c.data d ∧
      (⟨d, c.layout⟩ : Tensor γ).WF ∧ a.arr.Same (⟨d, c.layout⟩ : Tensor γ).arr ∧
      ChangedOnly (Addressed c.layout.stride c.layout.offset c.layout.shape) c.data d := by
  have sc' : c.layout.shape = [m, n] := sc
  have sa' : a.layout.shape = [m, n] := sa
  have nc : c.layout.ndim = 2 := ndim_eq sc'
  have na : a.layout.ndim = 2 := ndim_eq sa'
  have len : ∀ {i : List Nat}, InRange i [n, m] → i.length = 2 := fun h => h.length_eq
  have revr : ∀ {i : List Nat} {p q : Nat}, InRange i [p, q] → InRange i.reverse [q, p] := fun h => h.reverse
  have str : ∀ l : Layout, l.reverseAxes.stride = l.stride.reverse := fun l => by
    simp [Layout.reverseAxes, Layout.stride, List.map_reverse]
  have cov : ∀ {l : Layout} {x : List γ}, l.ndim = 2 → Covers [m, n] l x → Covers [n, m] l.reverseAxes x := by
    intro l x hl h i hi
    rw [rev_pos (by rw [len hi, hl])]
    exact h _ (revr hi)
  obtain ⟨d, d1, d2⟩ := order_core (c := c.data) (a := a.data) (lc := c.layout.reverseAxes) (la := a.layout.reverseAxes) (m := n) (n := m)
    (by have := hc.fit.rev; rwa [sc'] at this) (by have := ha.fit.rev; rwa [sa'] at this)
    (cov nc (sc' ▸ hc.covers)) (cov na (sa' ▸ ha.covers)) (by rw [str, tc]; rfl) (by rw [str, ta]; rfl)
    (fun i j hi hj e => by
      rw [rev_pos (by rw [len hi, nc]), rev_pos (by rw [len hj, nc])] at e
      exact List.reverse_injective (hu.pos hc (sc ▸ revr hi) (sc ▸ revr hj) e))
  refine ⟨d, d1, order_finish hc ha sc sa (d2.congr fun k v => ?_)⟩
  unfold CopyWrites
  constructor
  · rintro ⟨i, hi, e, x, hx, hv⟩
    rw [rev_pos (by rw [len hi, nc])] at e
    rw [rev_pos (by rw [len hi, na])] at hx
    exact ⟨i.reverse, revr hi, e, x, hx, hv⟩
  · rintro ⟨i, hi, e, x, hx, hv⟩
    refine ⟨i.reverse, revr hi, ?_, x, ?_, hv⟩
    · rw [rev_pos (by rw [len (revr hi), nc]), List.reverse_reverse]; exact e
    · rw [rev_pos (by rw [len (revr hi), na]), List.reverse_reverse]; exact hx

/-- Other shapes and strides are rejected, and nothing is written. -/
theorem C49_reject (pool : Bool) (s : BlockPlan) (c a : Tensor γ) (h2c : c.arr.shape.length = 2) (h2a : a.arr.shape.length = 2)
    (h : c.arr.shape ≠ a.arr.shape ∨ c.layout.stride[0]? ≠ some 1 ∨ a.layout.stride[1]? ≠ some 1) :
    orderR2C c.data c.layout a.data a.layout = .error .invalidLayout ∧
    orderR2CPar pool s c.data c.layout a.data a.layout = .error .invalidLayout := by
  obtain ⟨dc, ⟨axc, oc⟩⟩ := c
  obtain ⟨da, ⟨axa, oa⟩⟩ := a
  simp only [Tensor.arr, Layout.shape, List.length_map] at h2c h2a h
  match axc, axa, h2c, h2a with
  | [c0, c1], [a0, a1], _, _ =>
    have hs : orderR2C dc ⟨[c0, c1], oc⟩ da ⟨[a0, a1], oa⟩ = .error .invalidLayout := by
      unfold orderR2C
      simp only [Layout.stride, List.map_cons, List.map_nil, List.getElem?_cons_zero, List.getElem?_cons_succ, ne_eq,
        List.cons.injEq, and_true, Option.some.injEq] at h
      dsimp only
      split_ifs <;> first | rfl | (exfalso; tauto)
    refine ⟨hs, ?_⟩
    unfold orderR2CPar
    split
    · rw [hs]; rfl
    · unfold orderR2CNoPool
      split
      · rw [hs]; rfl
      · unfold orderR2C at hs
        dsimp only at hs ⊢
        split_ifs at hs ⊢ <;> first | rfl | skip
        exfalso
        simp only [Layout.stride, List.map_cons, List.map_nil, List.getElem?_cons_zero, List.getElem?_cons_succ, ne_eq,
          List.cons.injEq, and_true, Option.some.injEq] at h
        tauto

/-! ## The hypotheses are met -/

/-- A row-major matrix with a leading stride of 5 and a column-major destination. -/
def orderA : Tensor Nat := ⟨[1, 2, 3, 0, 0, 4, 5, 6], ⟨[⟨2, 5⟩, ⟨3, 1⟩], 0⟩⟩
def orderC : Tensor Nat := ⟨[0, 0, 0, 0, 0, 0, 0, 0], ⟨[⟨2, 1⟩, ⟨3, 3⟩], 0⟩⟩

example : orderA.WF ∧ orderC.WF := ⟨⟨by decide, rfl⟩, ⟨by decide, rfl⟩⟩
example : orderA.arr.shape = [2, 3] ∧ orderC.arr.shape = [2, 3] ∧ orderA.layout.stride = [5, 1] ∧ orderC.layout.stride = [1, 3] :=
  ⟨rfl, rfl, rfl, rfl⟩
example : orderC.Unshared := by
  intro i j hi hj e
  have h1 := hi.length_eq
  have h2 := hj.length_eq
  match i, j, h1, h2 with
  | [i0, i1], [j0, j1], _, _ =>
    have h3 : i0 < 2 ∧ i1 < 3 := inRange_pair.1 hi
    have h4 : j0 < 2 ∧ j1 < 3 := inRange_pair.1 hj
    simp [orderC, position, Layout.stride] at e
    have : i0 = j0 ∧ i1 = j1 := by omega
    rw [this.1, this.2]
example : orderR2C orderC.data orderC.layout orderA.data orderA.layout = .ok [1, 4, 0, 2, 5, 0, 3, 6] := rfl

/-- Sizes that are not multiples of the block. -/
example : (blockStarts 130, (blockStarts 130).map fun s => (blockOf 130 s).length) = ([0, 64, 128], [64, 64, 2]) := by decide

end
end Rstsr
