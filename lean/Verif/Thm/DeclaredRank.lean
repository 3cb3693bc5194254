import Verif.Spec.DeclaredRank
import Verif.Model.DeclaredRank
import Verif.Thm.Broadcast
import Verif.Thm.Matmul
import Verif.Proof.Diagonal
import Verif.Proof.Narrow
/-!
# C112: the rank in the type of a result is the rank of the result
-/
namespace Rstsr
open Spec

theorem lookup1_mem {t : List (Nat × Nat)} {n k : Nat} (h : lookup1 t n = some k) : (n, k) ∈ t := by
  unfold lookup1 at h
  obtain ⟨p, h1, rfl⟩ := Option.map_eq_some_iff.1 h
  have h2 := List.mem_of_find?_eq_some h1
  have h3 := List.find?_some h1
  simp only [beq_iff_eq] at h3
  rw [← h3]; exact h2

theorem lookup2_mem {t : List (Nat × Nat × Nat)} {n m k : Nat} (h : lookup2 t n m = some k) : (n, m, k) ∈ t := by
  unfold lookup2 at h
  obtain ⟨p, h1, rfl⟩ := Option.map_eq_some_iff.1 h
  have h2 := List.mem_of_find?_eq_some h1
  have h3 := List.find?_some h1
  simp only [Bool.and_eq_true, beq_iff_eq] at h3
  rw [← h3.1, ← h3.2]; exact h2

/-- The promised rank of an operation that removes an axis, adds one, or broadcasts: for fixed ranks up to 9 it is one less, one more, the larger one;
if a rank is dynamic, so is the rank of the result; no other rank is promised. -/
theorem C112_tables (r q p : Rank) :
    (r.smaller = some p ↔ (r = none ∧ p = none) ∨ ∃ k, k < 9 ∧ r = some (k + 1) ∧ p = some k) ∧
    (r.larger = some p ↔ (r = none ∧ p = none) ∨ ∃ k, k < 9 ∧ r = some k ∧ p = some (k + 1)) ∧
    (r.max q = some p ↔ (∀ n ∈ r, n < 10) ∧ (∀ m ∈ q, m < 10) ∧
      (((r = none ∨ q = none) ∧ p = none) ∨ ∃ n m, r = some n ∧ q = some m ∧ p = some (Nat.max n m))) := by
  refine ⟨?_, ?_, ?_⟩
  · cases r with
    | none => simp [Rank.smaller, eq_comm]
    | some n =>
      constructor
      · intro h
        obtain ⟨k, hk, rfl⟩ := Option.map_eq_some_iff.1 h
        have : ∀ p ∈ smallerTable, p.2 < 9 ∧ p.1 = p.2 + 1 := by decide
        obtain ⟨h1, h2⟩ := this _ (lookup1_mem hk)
        exact .inr ⟨k, h1, congrArg some h2, rfl⟩
      · rintro (⟨h, -⟩ | ⟨k, hk, h, rfl⟩)
        · cases h
        · cases h
          have : ∀ k < 9, Rank.smaller (some (k + 1)) = some (some k) := by decide
          exact this k hk
  · cases r with
    | none => simp [Rank.larger, eq_comm]
    | some n =>
      constructor
      · intro h
        obtain ⟨k, hk, rfl⟩ := Option.map_eq_some_iff.1 h
        have : ∀ p ∈ largerTable, p.1 < 9 ∧ p.2 = p.1 + 1 := by decide
        obtain ⟨h1, h2⟩ := this _ (lookup1_mem hk)
        exact .inr ⟨n, h1, rfl, congrArg some h2⟩
      · rintro (⟨h, -⟩ | ⟨k, hk, h, rfl⟩)
        · cases h
        · cases h
          have : ∀ k < 9, Rank.larger (some k) = some (some (k + 1)) := by decide
          exact this n hk
  · cases r with
    | none =>
      cases q with
      | none => simp [Rank.max, eq_comm]
      | some m => simp [Rank.max, eq_comm]
    | some n =>
      cases q with
      | none => simp [Rank.max, eq_comm]
      | some m =>
        constructor
        · intro h
          obtain ⟨k, hk, rfl⟩ := Option.map_eq_some_iff.1 h
          have : ∀ p ∈ maxTable, p.1 < 10 ∧ p.2.1 < 10 ∧ p.2.2 = Nat.max p.2.1 p.1 := by decide +kernel
          obtain ⟨h1, h2, h3⟩ := this _ (lookup2_mem hk)
          refine ⟨by rintro _ ⟨⟩; exact h2, by rintro _ ⟨⟩; exact h1, .inr ⟨n, m, rfl, rfl, congrArg some h3⟩⟩
        · rintro ⟨h1, h2, h⟩
          rcases h with ⟨h | h, -⟩ | ⟨n', m', ⟨⟩, ⟨⟩, rfl⟩
          · cases h
          · cases h
          · have : ∀ n < 10, ∀ m < 10, Rank.max (some n) (some m) = some (some (Nat.max n m)) := by decide +kernel
            exact this n (h1 n rfl) m (h2 m rfl)

theorem intoRank_of {r : Rank} {l : Layout} (h : r.Has l) : l.intoRank r = .ok l := by
  cases r with
  | none => rfl
  | some n => exact if_pos h

theorem typed_of {q : Rank} {res : Res Layout} (h : ∀ m, res = .ok m → q.Has m) : Layout.typed (some q) res = some res := by
  unfold Layout.typed
  cases res with
  | error e => rfl
  | ok m => exact congrArg some (intoRank_of (h m rfl))

theorem has_smaller {r q : Rank} {l m : Layout} (hr : r.Has l) (hq : r.smaller = some q) (h : m.ndim + 1 = l.ndim) : q.Has m := by
  rcases ((C112_tables r none q).1.1 hq) with ⟨-, rfl⟩ | ⟨k, -, rfl, rfl⟩
  · trivial
  · have hr : l.ndim = k + 1 := hr
    show m.ndim = k
    omega

theorem has_larger {r q : Rank} {l m : Layout} (hr : r.Has l) (hq : r.larger = some q) (h : m.ndim = l.ndim + 1) : q.Has m := by
  rcases ((C112_tables r none q).2.1.1 hq) with ⟨-, rfl⟩ | ⟨k, -, rfl, rfl⟩
  · trivial
  · have hr : l.ndim = k := hr
    show m.ndim = k + 1
    omega

theorem erase_ndim {l m : Layout} {a : Nat} {off : Int} (ha : a < l.ndim) (h : Layout.newAxes (l.axes.eraseIdx a) off = .ok m) :
    m.ndim + 1 = l.ndim := by
  rw [(newAxes_ok.1 h).1]
  unfold Layout.ndim at *
  rw [List.length_eraseIdx_of_lt ha]
  omega

/-- Removing an axis: the conversion to the promised rank never fails, and the result has one axis less. -/
theorem C112_remove (r q : Rank) (l : Layout) (hr : r.Has l) (hq : r.smaller = some q) (axis index : Int) :
    l.dimSelectTyped r axis index = some (l.dimSelect axis index) ∧ l.dimEliminateTyped r axis = some (l.dimEliminate axis) ∧
    l.dimChopTyped r axis = some (l.dimChop axis) ∧
    ∀ m, l.dimSelect axis index = .ok m ∨ l.dimEliminate axis = .ok m ∨ l.dimChop axis = .ok m → q.Has m ∧ m.ndim + 1 = l.ndim := by
  have h1 : ∀ m, l.dimSelect axis index = .ok m → m.ndim + 1 = l.ndim := by
    intro m h
    unfold Layout.dimSelect at h
    obtain ⟨a, ha, h⟩ := bind_ok.1 h
    dsimp only at h
    split at h
    · split at h
      · exact erase_ndim (checkAxis_ok' ha) h
      · cases h
    · split at h
      · exact erase_ndim (checkAxis_ok' ha) h
      · cases h
  have h2 : ∀ m, l.dimEliminate axis = .ok m → m.ndim + 1 = l.ndim := by
    intro m h
    unfold Layout.dimEliminate at h
    obtain ⟨a, ha, h⟩ := bind_ok.1 h
    split at h
    · cases h
    · exact erase_ndim (checkAxis_ok' ha) h
  have h3 : ∀ m, l.dimChop axis = .ok m → m.ndim + 1 = l.ndim := by
    intro m h
    unfold Layout.dimChop at h
    obtain ⟨a, ha, h⟩ := bind_ok.1 h
    exact erase_ndim (checkAxis_ok' ha) h
  unfold Layout.dimSelectTyped Layout.dimEliminateTyped Layout.dimChopTyped
  rw [hq]
  refine ⟨typed_of fun m h => has_smaller hr hq (h1 m h), typed_of fun m h => has_smaller hr hq (h2 m h),
    typed_of fun m h => has_smaller hr hq (h3 m h), ?_⟩
  rintro m (h | h | h)
  · exact ⟨has_smaller hr hq (h1 m h), h1 m h⟩
  · exact ⟨has_smaller hr hq (h2 m h), h2 m h⟩
  · exact ⟨has_smaller hr hq (h3 m h), h3 m h⟩

/-- Inserting an axis: the conversion to the promised rank never fails, and the result has one axis more. -/
theorem C112_insert (r q : Rank) (l : Layout) (hr : r.Has l) (hq : r.larger = some q) (axis : Int) :
    l.dimInsertTyped r axis = some (l.dimInsert axis) ∧ ∀ m, l.dimInsert axis = .ok m → q.Has m ∧ m.ndim = l.ndim + 1 := by
  have h1 : ∀ m, l.dimInsert axis = .ok m → m.ndim = l.ndim + 1 := by
    intro m h
    unfold Layout.dimInsert at h
    obtain ⟨a, ha, h⟩ := bind_ok.1 h
    have ha := (checkAxisInsert_ok.1 ha)
    have hlt : a < l.ndim + 1 := ha.2 ▸ normAxis_lt ha.1
    rw [(newAxes_ok.1 h).1]
    unfold Layout.ndim at *
    exact List.length_insertIdx_of_le_length (by omega) _
  unfold Layout.dimInsertTyped
  rw [hq]
  exact ⟨typed_of fun m h => has_larger hr hq (h1 m h), fun m h => ⟨has_larger hr hq (h1 m h), h1 m h⟩⟩

/-- Broadcasting: the conversions to the promised rank never fail, and the results have the larger number of axes. -/
theorem C112_broadcast (r1 r2 q : Rank) (l1 l2 : Layout) (h1 : r1.Has l1) (h2 : r2.Has l2) (hq : r1.max r2 = some q) (o : Order) :
    l1.broadcastTyped r1 r2 l2 o = some (l1.broadcast l2 o) ∧
    ∀ m1 m2, l1.broadcast l2 o = .ok (m1, m2) → q.Has m1 ∧ q.Has m2 ∧ m1.ndim = max l1.ndim l2.ndim ∧ m2.ndim = max l1.ndim l2.ndim := by
  have key : ∀ m1 m2, l1.broadcast l2 o = .ok (m1, m2) →
      q.Has m1 ∧ q.Has m2 ∧ m1.ndim = max l1.ndim l2.ndim ∧ m2.ndim = max l1.ndim l2.ndim := by
    intro m1 m2 h
    obtain ⟨hb, hs, -⟩ := C17_broadcast_layout l1 l2 m1 m2 o h
    have e : ∀ l : Layout, l.shape.length = l.ndim := fun l => by simp [Layout.shape, Layout.ndim]
    have e1 : m1.ndim = max l1.ndim l2.ndim := by
      have := hb.1; simpa only [e] using this
    have e2 : m2.ndim = max l1.ndim l2.ndim := by rw [← e, hs, e, e1]
    have hh : ∀ m : Layout, m.ndim = max l1.ndim l2.ndim → q.Has m := by
      intro m hm
      rcases ((C112_tables r1 r2 q).2.2.1 hq).2.2 with ⟨-, rfl⟩ | ⟨n, k, rfl, rfl, rfl⟩
      · trivial
      · have a1 : l1.ndim = n := h1
        have a2 : l2.ndim = k := h2
        show m.ndim = max n k
        rw [hm, a1, a2]
    exact ⟨hh m1 e1, hh m2 e2, e1, e2⟩
  refine ⟨?_, key⟩
  unfold Layout.broadcastTyped
  rw [hq]
  cases h : l1.broadcast l2 o with
  | error e => rfl
  | ok p =>
    obtain ⟨m1, m2⟩ := p
    obtain ⟨k1, k2, -⟩ := key m1 m2 h
    simp only [Option.map_some, ok_bind, intoRank_of k1, intoRank_of k2]
    rfl

theorem matTable_rank : ∀ p ∈ matTable, p.2.2 = productRank p.1 p.2.1 := by decide +kernel

/-- The promised rank of a product: of two fixed ranks from 1 to 9 that are equal, or of which one is at most 2, it is the rank of the product;
if a rank is dynamic, so is the rank of the result; no other product is compiled. -/
theorem C112_products (r q p : Rank) :
    Rank.mat r q = some p ↔ (∀ n ∈ r, 1 ≤ n ∧ n ≤ 9) ∧ (∀ m ∈ q, 1 ≤ m ∧ m ≤ 9) ∧
      (((r = none ∨ q = none) ∧ p = none) ∨
        ∃ n m, r = some n ∧ q = some m ∧ (n = m ∨ n ≤ 2 ∨ m ≤ 2) ∧ p = some (productRank n m)) := by
  have mx : ∀ n, n ∈ matMixed ↔ 1 ≤ n ∧ n ≤ 9 := by
    intro n
    simp only [matMixed, List.mem_cons, List.not_mem_nil, or_false]
    omega
  cases r with
  | none =>
    cases q with
    | none => simp [Rank.mat, eq_comm]
    | some m => simp [Rank.mat, mx, eq_comm]
  | some n =>
    cases q with
    | none => simp [Rank.mat, mx, eq_comm]
    | some m =>
      constructor
      · intro h
        obtain ⟨k, hk, rfl⟩ := Option.map_eq_some_iff.1 h
        have : ∀ p ∈ matTable, (1 ≤ p.1 ∧ p.1 ≤ 9) ∧ (1 ≤ p.2.1 ∧ p.2.1 ≤ 9) ∧ (p.1 = p.2.1 ∨ p.1 ≤ 2 ∨ p.2.1 ≤ 2) := by decide +kernel
        obtain ⟨h1, h2, h3⟩ := this _ (lookup2_mem hk)
        refine ⟨by rintro _ ⟨⟩; exact h1, by rintro _ ⟨⟩; exact h2, .inr ⟨n, m, rfl, rfl, h3, ?_⟩⟩
        exact congrArg some (matTable_rank _ (lookup2_mem hk))
      · rintro ⟨h1, h2, h⟩
        rcases h with ⟨h | h, -⟩ | ⟨n', m', ⟨⟩, ⟨⟩, h, rfl⟩
        · cases h
        · cases h
        · have : ∀ n < 10, ∀ m < 10, (1 ≤ n ∧ 1 ≤ m ∧ (n = m ∨ n ≤ 2 ∨ m ≤ 2)) → Rank.mat (some n) (some m) = some (some (productRank n m)) := by
            decide +kernel
          have a := h1 n rfl
          have b := h2 m rfl
          exact this n (by omega) m (by omega) ⟨a.1, b.1, h⟩

theorem matmulCfg_ndim {la lb : Layout} {o : Order} {cfg : MatMulCfg} (h : la.matmulCfg lb o = .ok cfg) :
    cfg.lc.ndim = productRank la.ndim lb.ndim := by
  obtain ⟨s, ba, bb, bc, rows, cols, K, hs, e⟩ := (C41_accept_iff la lb cfg.lc o).1 ⟨cfg, h, rfl⟩
  have e0 : ∀ l : Layout, l.ndim = l.shape.length := fun l => by simp [Layout.shape, Layout.ndim]
  have hg : ∀ x y : List Nat, (glue o x y).length = x.length + y.length := by
    intro x y; cases o <;> simp [glue, Nat.add_comm]
  have h1 : la.ndim = ba.length + (rows.length + 1) := by rw [e0, hs.left, hg]; simp
  have h2 : lb.ndim = bb.length + (cols.length + 1) := by rw [e0, hs.right, hg]; simp
  have h3 : cfg.lc.ndim = bc.length + (rows.length + cols.length) := by
    rw [e0, e, freshLayout_shape, hs.out, hg]; simp
  have h4 := hs.common.1
  have h5 := hs.rowsLen
  have h6 := hs.colsLen
  have h7 : rows.length = 0 → ba.length = 0 := fun h => by rw [hs.rowVec (List.length_eq_zero_iff.1 h)]; rfl
  have h8 : cols.length = 0 → bb.length = 0 := fun h => by rw [hs.colVec (List.length_eq_zero_iff.1 h)]; rfl
  unfold productRank
  split_ifs <;> omega

theorem has_mat {ra rb q : Rank} {la lb m : Layout} (ha : ra.Has la) (hb : rb.Has lb) (hq : Rank.mat ra rb = some q)
    (h : m.ndim = productRank la.ndim lb.ndim) : q.Has m := by
  cases ra with
  | none =>
    cases rb with
    | none => cases hq; trivial
    | some k => simp only [Rank.mat] at hq; split at hq <;> cases hq; trivial
  | some n =>
    cases rb with
    | none => simp only [Rank.mat] at hq; split at hq <;> cases hq; trivial
    | some k =>
      obtain ⟨j, hj, rfl⟩ := Option.map_eq_some_iff.1 hq
      have a1 : la.ndim = n := ha
      have a2 : lb.ndim = k := hb
      show m.ndim = j
      rw [h, a1, a2]
      exact (matTable_rank _ (lookup2_mem hj)).symm

/-- Matrix products: the conversion to the promised rank never fails, so a product of tensors of fixed ranks is accepted exactly if it is for
dynamic ranks, with a result of the same shape, and the result has the promised rank. -/
theorem C112_matmul (ra rb q : Rank) (la lb : Layout) (ha : ra.Has la) (hb : rb.Has lb) (hq : Rank.mat ra rb = some q) (o : Order) :
    (∀ s, (∃ cfg, la.matmulTyped ra rb lb o = some (.ok cfg) ∧ cfg.lc.shape = s) ↔ ∃ cfg, la.matmulCfg lb o = .ok cfg ∧ cfg.lc.shape = s) ∧
    ∀ cfg, la.matmulTyped ra rb lb o = some (.ok cfg) → q.Has cfg.lc ∧ cfg.lc.ndim = productRank la.ndim lb.ndim := by
  have e0 : ∀ l : Layout, l.ndim = l.shape.length := fun l => by simp [Layout.shape, Layout.ndim]
  have key : ∀ s, (∃ cfg, la.matmulTyped ra rb lb o = some (.ok cfg) ∧ cfg.lc.shape = s) ↔
      ∃ cfg, la.matmulCfg lb o = .ok cfg ∧ cfg.lc.shape = s := by
    intro s
    unfold Layout.matmulTyped
    rw [hq]
    simp only [Option.map_some, Option.some.injEq]
    split
    · rename_i h
      obtain ⟨rfl, rfl⟩ := h
      have h := C41_static_vectors la lb ha hb o
      constructor
      · rintro ⟨c, hc, rfl⟩
        rw [hc] at h
        cases hd : la.matmulCfg lb o with
        | error e => rw [hd] at h; cases h
        | ok d => rw [hd] at h; simp only [Except.map, Except.ok.injEq] at h; exact ⟨d, rfl, by rw [h]⟩
      · rintro ⟨c, hc, rfl⟩
        rw [hc] at h
        cases hd : la.matmulFixed11 lb o with
        | error e => rw [hd] at h; cases h
        | ok d => rw [hd] at h; simp only [Except.map, Except.ok.injEq] at h; exact ⟨d, rfl, by rw [h]⟩
    · split
      · rename_i h
        obtain ⟨rfl, rfl⟩ := h
        rw [C41_static_matrices la lb ha hb o s]
        constructor
        · rintro ⟨M, K, N, h1, h2, rfl⟩
          obtain ⟨c, hc, e⟩ := (C41_accept_iff la lb (freshLayout o [M, N]) o).2 ⟨[M, N], [], [], [], [M], [N], K,
            ⟨by rw [h1]; cases o <;> rfl, by rw [h2]; cases o <;> rfl, by cases o <;> rfl, le_refl _, le_refl _, fun _ => rfl, fun _ => rfl,
              rfl, fun k hk => absurd hk (by simp)⟩, rfl⟩
          exact ⟨c, hc, by rw [e, freshLayout_shape]⟩
        · rintro ⟨c, hc, rfl⟩
          obtain ⟨s, ba, bb, bc, rows, cols, K, hs, e⟩ := (C41_accept_iff la lb c.lc o).1 ⟨c, hc, rfl⟩
          have a1 : la.ndim = 2 := ha
          have a2 : lb.ndim = 2 := hb
          have hg : ∀ x y : List Nat, (glue o x y).length = x.length + y.length := by
            intro x y; cases o <;> simp [glue, Nat.add_comm]
          have h1 : la.ndim = ba.length + (rows.length + 1) := by rw [e0, hs.left, hg]; simp
          have h2 : lb.ndim = bb.length + (cols.length + 1) := by rw [e0, hs.right, hg]; simp
          have h7 : rows.length = 0 → ba.length = 0 := fun h => by rw [hs.rowVec (List.length_eq_zero_iff.1 h)]; rfl
          have h8 : cols.length = 0 → bb.length = 0 := fun h => by rw [hs.colVec (List.length_eq_zero_iff.1 h)]; rfl
          have h4 := hs.common.1
          obtain ⟨M, rfl⟩ := List.length_eq_one_iff.1 (show rows.length = 1 by omega)
          obtain ⟨N, rfl⟩ := List.length_eq_one_iff.1 (show cols.length = 1 by omega)
          obtain rfl := List.length_eq_zero_iff.1 (show ba.length = 0 by simp at h1; omega)
          obtain rfl := List.length_eq_zero_iff.1 (show bb.length = 0 by simp at h2; omega)
          obtain rfl := List.length_eq_zero_iff.1 (show bc.length = 0 by simpa using h4)
          refine ⟨M, K, N, ?_, ?_, ?_⟩
          · rw [hs.left]; cases o <;> rfl
          · rw [hs.right]; cases o <;> rfl
          · rw [e, freshLayout_shape, hs.out]; cases o <;> rfl
      · constructor
        · rintro ⟨c, hc, rfl⟩
          obtain ⟨d, hd, hc⟩ := bind_ok.1 hc
          rw [intoRank_of (has_mat ha hb hq (matmulCfg_ndim hd))] at hc
          cases hc
          exact ⟨d, hd, rfl⟩
        · rintro ⟨d, hd, rfl⟩
          refine ⟨d, ?_, rfl⟩
          rw [hd, ok_bind, intoRank_of (has_mat ha hb hq (matmulCfg_ndim hd))]
          rfl
  refine ⟨key, fun cfg h => ?_⟩
  obtain ⟨d, hd, e⟩ := (key _).1 ⟨cfg, h, rfl⟩
  have : cfg.lc.ndim = productRank la.ndim lb.ndim := by rw [← matmulCfg_ndim hd, e0, e0, e]
  exact ⟨has_mat ha hb hq this, this⟩

theorem diagonal_ndim {l m : Layout} {off ax1 ax2 : Option Int} (h : l.diagonal off ax1 ax2 = .ok m) :
    m.ndim = (dropAxes [normAxis l.ndim (ax1.getD 0), normAxis l.ndim (ax2.getD 1)] l.axes).length + 1 ∧
    normAxis l.ndim (ax1.getD 0) < l.ndim ∧ normAxis l.ndim (ax2.getD 1) < l.ndim := by
  unfold Layout.diagonal at h
  split at h
  · cases h
  · obtain ⟨x, hx, h⟩ := bind_ok.1 h
    obtain ⟨y, hy, h⟩ := bind_ok.1 h
    have hx' := checkAxis_ok' hx
    have hy' := checkAxis_ok' hy
    obtain ⟨-, rfl⟩ := checkAxis_ok.1 hx
    obtain ⟨-, rfl⟩ := checkAxis_ok.1 hy
    dsimp only at h
    have h := (newAxes_ok.1 (ok_of_ite_error h)).1
    refine ⟨?_, hx', hy'⟩
    rw [h]
    unfold Layout.ndim
    rw [List.length_append, diagonal_rest]
    rfl

/-- Diagonals of two different axes: the conversion to the promised rank never fails, and the result has one axis less. -/
theorem C112_diagonal_partial (r q : Rank) (l : Layout) (hr : r.Has l) (hq : r.smaller = some q) (off ax1 ax2 : Option Int)
    (hne : normAxis l.ndim (ax1.getD 0) ≠ normAxis l.ndim (ax2.getD 1)) :
    l.diagonalTyped r off ax1 ax2 = some (l.diagonal off ax1 ax2) ∧
    ∀ m, l.diagonal off ax1 ax2 = .ok m → q.Has m ∧ m.ndim + 1 = l.ndim := by
  have key : ∀ m, l.diagonal off ax1 ax2 = .ok m → m.ndim + 1 = l.ndim := by
    intro m h
    obtain ⟨h1, h2, h3⟩ := diagonal_ndim h
    rw [h1]
    generalize normAxis l.ndim (ax1.getD 0) = a at *
    generalize normAxis l.ndim (ax2.getD 1) = b at *
    have two : ∀ lo hi : Nat, lo < hi → hi < l.ndim → (dropAxes [lo, hi] l.axes).length + 1 + 1 = l.ndim := by
      intro lo hi h h'
      unfold Layout.ndim at *
      rw [dropAxes_pair h h', List.length_eraseIdx_of_lt (by rw [List.length_eraseIdx_of_lt h']; omega), List.length_eraseIdx_of_lt h']
      omega
    rcases Nat.lt_or_gt_of_ne hne with h | h
    · exact two a b h h3
    · have e : dropAxes [a, b] l.axes = dropAxes [b, a] l.axes := by
        rw [← diagonal_rest, ← diagonal_rest]
        congr 1
        apply List.filter_congr
        intro p _
        simp only [decide_eq_decide]
        tauto
      rw [e]
      exact two b a h h2
  unfold Layout.diagonalTyped
  rw [hq]
  exact ⟨typed_of fun m h => has_smaller hr hq (key m h), fun m h => ⟨has_smaller hr hq (key m h), key m h⟩⟩

/-- What is missing: the diagonal of an axis with itself has as many axes as the tensor. With a fixed rank it is refused, with a dynamic
rank it is not. -/
theorem C112_false_diagonal : (⟨[⟨3, 3⟩, ⟨3, 1⟩], 0⟩ : Layout).diagonalTyped (some 2) none (some 0) (some (-2)) = some (.error .invalidLayout) ∧
    (⟨[⟨3, 3⟩, ⟨3, 1⟩], 0⟩ : Layout).diagonalTyped none none (some 0) (some (-2)) = some (.ok ⟨[⟨3, 1⟩, ⟨3, 6⟩], 0⟩) := by
  decide +kernel

/-- Not every product of fixed ranks is compiled, although the one of dynamic ranks is accepted: a stack of stacks of matrices times a stack. -/
theorem C112_false_compiled : (⟨[⟨2, 12⟩, ⟨2, 6⟩, ⟨2, 3⟩, ⟨3, 1⟩], 0⟩ : Layout).matmulTyped (some 4) (some 3) ⟨[⟨2, 6⟩, ⟨3, 2⟩, ⟨2, 1⟩], 0⟩ .C = none ∧
    ((⟨[⟨2, 12⟩, ⟨2, 6⟩, ⟨2, 3⟩, ⟨3, 1⟩], 0⟩ : Layout).matmulCfg ⟨[⟨2, 6⟩, ⟨3, 2⟩, ⟨2, 1⟩], 0⟩ .C).map (fun c => c.lc.shape) = .ok [2, 2, 2, 2] := by
  decide +kernel

/-- Turning an axis into arrays, and arrays into an axis: no conversion to the promised rank panics. -/
theorem C112_pack_array {α : Type} (r : Rank) (n : Nat) (axis : Int) :
    (∀ (t : Tensor α) (q : Rank), r.Has t.layout → r.smaller = some q → t.packArrayTyped r n axis = some (t.intoPackArray n axis) ∧
      ∀ c, t.intoPackArray n axis = .ok c → q.Has c.layout ∧ c.layout.ndim + 1 = t.layout.ndim) ∧
    ∀ (t : Tensor (List α)) (q : Rank), r.Has t.layout → r.larger = some q → t.unpackArrayTyped r n axis = some (t.intoUnpackArray n axis) ∧
      ∀ c, t.intoUnpackArray n axis = .ok c → q.Has c.layout ∧ c.layout.ndim = t.layout.ndim + 1 := by
  constructor
  · intro t q hr hq
    have key : ∀ c, t.intoPackArray n axis = .ok c → c.layout.ndim + 1 = t.layout.ndim := by
      intro c h
      unfold Tensor.intoPackArray at h
      obtain ⟨a, ha, h⟩ := bind_ok.1 h
      dsimp only at h
      split at h
      · cases h
      split at h
      · cases h
      split at h
      · cases h
      split at h
      · cases h
      obtain ⟨d, -, h⟩ := bind_ok.1 h
      obtain ⟨l, hl, h⟩ := bind_ok.1 h
      cases h
      obtain ⟨b, hb, hl⟩ := bind_ok.1 hl
      have := erase_ndim (checkAxis_ok' hb) hl
      simpa [Layout.ndim] using this
    refine ⟨?_, fun c h => ⟨has_smaller hr hq (key c h), key c h⟩⟩
    unfold Tensor.packArrayTyped
    rw [hq]
    cases h : t.intoPackArray n axis with
    | error e => rfl
    | ok c => simp only [Option.map_some, ok_bind, intoRank_of (has_smaller hr hq (key c h))]
  · intro t q hr hq
    have key : ∀ c, t.intoUnpackArray n axis = .ok c → c.layout.ndim = t.layout.ndim + 1 := by
      intro c h
      unfold Tensor.intoUnpackArray at h
      obtain ⟨a, ha, h⟩ := bind_ok.1 h
      cases h
      have ha := checkAxisInsert_ok.1 ha
      have hlt : a < t.layout.ndim + 1 := ha.2 ▸ normAxis_lt ha.1
      unfold Layout.ndim at *
      rw [List.length_insertIdx_of_le_length (by rw [List.length_map]; omega), List.length_map]
    refine ⟨?_, fun c h => ⟨has_larger hr hq (key c h), key c h⟩⟩
    unfold Tensor.unpackArrayTyped
    rw [hq]
    cases h : t.intoUnpackArray n axis with
    | error e => rfl
    | ok c => simp only [Option.map_some, ok_bind, intoRank_of (has_larger hr hq (key c h))]

-- Non-vacuity.
example : ((⟨List.range 6, ⟨[⟨3, 2⟩, ⟨2, 1⟩], 0⟩⟩ : Tensor Nat).packArrayTyped (some 2) 2 (-1)).map (fun r => r.map fun c => (c.data, c.layout)) =
    some (.ok ([[0, 1], [2, 3], [4, 5]], ⟨[⟨3, 1⟩], 0⟩)) := by decide +kernel
example : ((⟨[[0, 1], [2, 3], [4, 5]], ⟨[⟨3, 1⟩], 0⟩⟩ : Tensor (List Nat)).unpackArrayTyped (some 1) 2 0).map (fun r => r.map fun c => (c.data, c.layout)) =
    some (.ok (List.range 6, ⟨[⟨2, 1⟩, ⟨3, 2⟩], 0⟩)) := by decide +kernel
example : Rank.Has (some 2) ⟨[⟨3, 4⟩, ⟨4, 1⟩], 0⟩ ∧ Rank.smaller (some 2) = some (some 1) ∧
    (⟨[⟨3, 4⟩, ⟨4, 1⟩], 0⟩ : Layout).dimSelectTyped (some 2) (-1) 2 = some (.ok ⟨[⟨3, 4⟩], 2⟩) := ⟨rfl, by decide, by decide +kernel⟩
example : Rank.larger (some 2) = some (some 3) ∧
    (⟨[⟨3, 4⟩, ⟨4, 1⟩], 0⟩ : Layout).dimInsertTyped (some 2) 1 = some (.ok ⟨[⟨3, 4⟩, ⟨1, 1⟩, ⟨4, 1⟩], 0⟩) := ⟨by decide, by decide +kernel⟩
example : Rank.max (some 1) (some 3) = some (some 3) ∧
    (⟨[⟨4, 1⟩], 0⟩ : Layout).broadcastTyped (some 1) (some 3) ⟨[⟨2, 3⟩, ⟨3, 1⟩, ⟨1, 1⟩], 0⟩ .C =
      some (.ok (⟨[⟨2, 0⟩, ⟨3, 0⟩, ⟨4, 1⟩], 0⟩, ⟨[⟨2, 3⟩, ⟨3, 1⟩, ⟨4, 0⟩], 0⟩)) := ⟨by decide, by decide +kernel⟩
example : Rank.mat (some 1) (some 3) = some (some 2) ∧
    ((⟨[⟨3, 1⟩], 0⟩ : Layout).matmulTyped (some 1) (some 3) ⟨[⟨2, 6⟩, ⟨3, 2⟩, ⟨2, 1⟩], 0⟩ .C).map (fun r => r.map fun c => c.lc.shape) = some (.ok [2, 2]) :=
  ⟨by decide, by decide +kernel⟩
example : (⟨[⟨2, 12⟩, ⟨3, 4⟩, ⟨4, 1⟩], 0⟩ : Layout).diagonalTyped (some 3) (some 1) (some (-1)) (some 1) = some (.ok ⟨[⟨2, 12⟩, ⟨2, 5⟩], 4⟩) := by
  decide +kernel

end Rstsr
