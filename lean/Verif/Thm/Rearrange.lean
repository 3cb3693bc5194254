import Verif.Proof.Rearrange
import Verif.Thm.Iter
/-!
# Properties C26, C28, C29: order-relaxed and joint traversal
-/
namespace Rstsr
open Spec

/-! ## C26 -/

theorem ofOrder_positions {l g : Layout} (hl : Accepted l) (ho : 0 ≤ l.offset)
    (hp : ((all .F g.shape).map g.addr).Perm ((all .C l.shape).map l.addr)) :
    ∃ it xs, Iter.new .F g = .ok it ∧ it.toList = .ok xs ∧ it.len = xs.length ∧ xs.Perm (positions .C l) := by
  have hn : NonNegative g := by
    intro idx hi
    have : g.addr idx ∈ (all .F g.shape).map g.addr := List.mem_map_of_mem (mem_all.2 hi)
    obtain ⟨j, hj, he⟩ := List.mem_map.1 (hp.mem_iff.1 this)
    have := (hl.good ho).nonNegative j (mem_all.1 hj)
    unfold Layout.addr at he
    omega
  obtain ⟨it, h1, h2, h3⟩ := C22_iteration .F g hn
  refine ⟨it, _, h1, h2, h3, ?_⟩
  have := hp.map Int.toNat
  rw [List.map_map, List.map_map] at this
  exact this

/-- Iteration in K order (and in G order, which the element iterator treats alike) returns the positions of
all elements, each index once: a permutation of the row-major visit. -/
theorem C26_k_order (dflt : Order) (l : Layout) (hl : l.Valid) (ho : 0 ≤ l.offset) (o : IterOrder)
    (hK : o = .K ∨ o = .G) :
    ∃ it xs, Iter.ofOrder dflt l o = .ok it ∧ it.toList = .ok xs ∧ it.len = xs.length ∧
      xs.Perm (positions .C l) := by
  have hl := valid_iff.1 hl
  have e : Iter.ofOrder dflt l o = (do Iter.new .F (← l.toColMajor dflt .K)) := by
    rcases hK with rfl | rfl <;> rfl
  rw [e, Layout.toColMajor]
  by_cases hs : l.size = 0
  · rw [greedy_zero _ hs]
    simp only [map_ok, ok_bind]
    exact ofOrder_positions hl ho ((perm_all .F .C _).map _)
  · rw [greedy_keep hl hs]
    simp only [map_ok, ok_bind]
    exact ofOrder_positions hl ho (greedy_perm .F .C)

/-- Row-major, column-major and default order of the element iterator; order B is refused. -/
theorem C26_plain_orders (dflt : Order) (l : Layout) :
    Iter.ofOrder dflt l .C = Iter.new .C l ∧ Iter.ofOrder dflt l .F = Iter.new .F l ∧
    Iter.ofOrder dflt l .A = Iter.new dflt l ∧ Iter.ofOrder dflt l .B = .error .invalidValue :=
  ⟨rfl, rfl, rfl, rfl⟩

/-- The permutation reported with the K-order layout: axis `k` of the result is axis `index[k]` of the
original, with its stride made non-negative; mirroring the negative axes and permuting the coordinates
of an index gives the same storage position. -/
theorem C26_k_permutation (l : Layout) (hl : l.Valid) (hs : l.shape.prod ≠ 0) :
    ∃ g index, l.greedy true = .ok (g, index) ∧ index.Perm (List.range l.shape.length) ∧
      g.shape = index.map (fun a => l.shape.getD a 0) ∧
      g.stride = index.map (fun a => ((l.stride.getD a 0).natAbs : Int)) ∧
      ∀ idx, InRange idx l.shape →
        InRange (index.map fun a => (flipIndex ((List.range l.shape.length).filter fun a => l.stride.getD a 0 < 0)
          l.shape idx).getD a 0) g.shape ∧
        g.addr (index.map fun a => (flipIndex ((List.range l.shape.length).filter fun a => l.stride.getD a 0 < 0)
          l.shape idx).getD a 0) = l.addr idx := by
  have hl := valid_iff.1 hl
  refine ⟨_, _, greedy_keep hl hs, ?_, ?_, ?_, ?_⟩
  · simpa [Layout.shape, Layout.ndim] using greedyIndex_perm l
  · show dims (pick _ _) = _
    rw [dims_pick, dims_absAxis]
    rfl
  · simp only [Layout.stride, pick, List.map_map]
    apply List.map_congr_left
    intro a ha
    have hlt : a < l.axes.length := by simpa [Layout.ndim] using (greedyIndex_perm l).mem_iff.1 ha
    simp only [Function.comp, List.getD_eq_getElem?_getD, List.getElem?_map, List.getElem?_eq_getElem hlt,
      Option.map_some, Option.getD_some]
    unfold absAxis
    split
    · simp only; omega
    · omega
  · intro idx hi
    have := greedy_addr hi
    have hil : idx.length = l.axes.length := by simpa [Layout.shape] using hi.length_eq
    rw [flipNeg_eq hil] at this
    have hst : ∀ a, (l.axes.getD a default).str = l.stride.getD a 0 := by
      intro a
      simp only [Layout.stride, List.getD_eq_getElem?_getD, List.getElem?_map]
      cases l.axes[a]? <;> rfl
    simp only [hst] at this
    simpa [Layout.shape, pickIdx] using this

theorem greedyLe_iff (axes : List Axis) (a b : Nat) : Layout.greedyLe true axes a b = true ↔
    (Layout.still (axes.getD a default) = true ∧ (Layout.still (axes.getD b default) = true → a ≤ b)) ∨
    (Layout.still (axes.getD a default) = false ∧ Layout.still (axes.getD b default) = false ∧
      (axes.getD a default).str.natAbs ≤ (axes.getD b default).str.natAbs) := by
  unfold Layout.greedyLe
  simp only
  generalize axes.getD a default = x
  generalize axes.getD b default = y
  cases Layout.still x <;> cases Layout.still y <;> simp

theorem greedyLe_sorted (axes : List Axis) (p : List Nat) :
    (p.insertionSort fun a b => Layout.greedyLe true axes a b).Pairwise fun a b => Layout.greedyLe true axes a b = true := by
  have : Std.Total (fun a b : Nat => Layout.greedyLe true axes a b = true) := ⟨by
    intro a b
    simp only [greedyLe_iff]
    generalize axes.getD a default = x
    generalize axes.getD b default = y
    cases Layout.still x <;> cases Layout.still y <;> simp <;> omega⟩
  have : IsTrans Nat (fun a b : Nat => Layout.greedyLe true axes a b = true) := ⟨by
    intro a b c
    simp only [greedyLe_iff]
    generalize axes.getD a default = x
    generalize axes.getD b default = y
    generalize axes.getD c default = z
    cases Layout.still x <;> cases Layout.still y <;> cases Layout.still z <;> simp <;> omega⟩
  exact List.pairwise_insertionSort (fun a b : Nat => Layout.greedyLe true axes a b = true) p

/-- The K-order layout is sorted: its axes of length above 1 and non-zero stride have non-decreasing
strides. -/
theorem C26_k_sorted (l g : Layout) (index : List Nat) (hl : l.Valid) (hs : l.shape.prod ≠ 0)
    (hg : l.greedy true = .ok (g, index)) :
    g.axes.Pairwise fun x y => x.dim ≠ 1 → x.str ≠ 0 → y.dim ≠ 1 → y.str ≠ 0 → x.str ≤ y.str := by
  have hl := valid_iff.1 hl
  rw [greedy_keep hl hs] at hg
  simp only [Except.ok.injEq, Prod.mk.injEq] at hg
  rw [← hg.1]
  unfold pick greedyIndex
  rw [List.pairwise_map]
  refine (greedyLe_sorted (l.axes.map absAxis) (List.range l.ndim)).imp ?_
  intro a b h h1 h2 h3 h4
  have hpos : ∀ k, 0 ≤ ((l.axes.map absAxis).getD k default).str := by
    intro k
    rw [List.getD_eq_getElem?_getD, List.getElem?_map]
    cases l.axes[k]? with
    | none => exact Int.le_refl 0
    | some x => simp only [Option.map_some, Option.getD_some, absAxis]; split <;> (try simp only) <;> omega
  have p1 := hpos a
  have p2 := hpos b
  rw [greedyLe_iff] at h
  generalize (l.axes.map absAxis).getD a default = x at *
  generalize (l.axes.map absAxis).getD b default = y at *
  rcases h with ⟨h, _⟩ | ⟨_, _, h⟩
  · simp only [Layout.still, Bool.or_eq_true, beq_iff_eq] at h
    rcases h with h | h
    · exact absurd h h1
    · exact absurd h h2
  · omega

example : (⟨[⟨2, 1⟩, ⟨3, -8⟩, ⟨4, 2⟩], 16⟩ : Layout).Valid ∧
    (⟨[⟨2, 1⟩, ⟨3, -8⟩, ⟨4, 2⟩], 16⟩ : Layout).greedy true =
      .ok (⟨[⟨2, 1⟩, ⟨4, 2⟩, ⟨3, 8⟩], 0⟩, [0, 2, 1]) := by constructor <;> decide

/-! ## C28 -/

/-- Orders C, F and K: translating layouts of one shape for joint traversal succeeds; there is one
enumeration `e` of all indices, each once, such that every translated layout visits, in column-major
order, exactly the positions its original has along `e`. -/
theorem C28_joint (dflt : Order) (shape : List Nat) (ls : List Layout) (hl : ∀ l ∈ ls, l.Valid)
    (hs : ∀ l ∈ ls, l.shape = shape) (o : IterOrder) (ho : o = .C ∨ o = .F ∨ o = .K) :
    ∃ (ms : List Layout) (e : List (List Nat)), Layout.toColMajorMany dflt ls o = .ok ms ∧ e.Perm (all .C shape) ∧
      List.Forall₂ (fun l m => (all .F m.shape).map m.addr = e.map l.addr) ls ms ∧
      ∃ s, ∀ m ∈ ms, m.shape = s := by
  cases ls with
  | nil => exact ⟨[], all .C shape, rfl, List.Perm.refl _, .nil, shape, by simp⟩
  | cons l0 rest =>
    have h0 : l0.shape = shape := hs l0 List.mem_cons_self
    have hany : (rest.any fun l => l.shape ≠ l0.shape) = false := by
      rw [List.any_eq_false]
      intro l hlm
      simp [h0, hs l (List.mem_cons_of_mem _ hlm)]
    have hif : ¬ ((rest.any fun l => l.shape ≠ l0.shape) = true) := by rw [hany]; simp
    rcases ho with rfl | rfl | rfl
    · obtain ⟨h1, h2⟩ := joint_C hs
      refine ⟨_, _, ?_, h1, h2⟩
      unfold Layout.toColMajorMany
      show (if _ then _ else _) = _
      rw [if_neg hif]
      exact mapM_eq_map fun _ _ => rfl
    · obtain ⟨h1, h2⟩ := joint_F hs
      refine ⟨_, _, ?_, h1, h2⟩
      unfold Layout.toColMajorMany
      show (if _ then _ else _) = _
      rw [if_neg hif]
      have := mapM_eq_map (f := fun l : Layout => l.toColMajor dflt .F) (g := id) (l := l0 :: rest) fun _ _ => rfl
      simpa using this
    · have hunf : Layout.toColMajorMany dflt (l0 :: rest) .K =
          (if (rest.any fun l => l.shape ≠ l0.shape) = true then .error .invalidLayout else do
            let (_, index) ← ((l0 :: rest).getD (if ((l0 :: rest).map Layout.sizeNonBroadcast).all
              (· == l0.sizeNonBroadcast) then 0
              else (Layout.lastMax ((l0 :: rest).map Layout.sizeNonBroadcast) 0 (0, 0)).1) l0).greedy true
            (l0 :: rest).mapM fun l => l.transpose (index.map Int.ofNat)) := rfl
      rw [hunf, if_neg hif]
      generalize (if ((l0 :: rest).map Layout.sizeNonBroadcast).all (· == l0.sizeNonBroadcast) then 0
        else (Layout.lastMax ((l0 :: rest).map Layout.sizeNonBroadcast) 0 (0, 0)).1) = k
      have hk : ((l0 :: rest).getD k l0) ∈ l0 :: rest := by
        rw [List.getD_eq_getElem?_getD]
        cases h : (l0 :: rest)[k]? with
        | none => exact List.mem_cons_self
        | some x => exact List.mem_of_getElem? h
      obtain ⟨g, p, h1, h2⟩ := greedy_keep_index (valid_iff.1 (hl _ hk))
      have hnd : ((l0 :: rest).getD k l0).ndim = shape.length := by
        rw [← hs _ hk]; simp [Layout.shape, Layout.ndim]
      rw [hnd] at h2
      obtain ⟨j1, j2⟩ := joint_K hs h2
      refine ⟨_, _, ?_, j1, j2⟩
      rw [h1]
      simp only [ok_bind]
      apply mapM_eq_map
      intro l hlm
      apply transpose_perm
      have : l.ndim = shape.length := by rw [← hs l hlm]; simp [Layout.shape, Layout.ndim]
      rw [this]; exact h2

/-- Order A (for rank at least one): the same; contiguous operands become one flat axis. -/
theorem C28_joint_default (dflt : Order) (shape : List Nat) (hr : shape ≠ []) (ls : List Layout)
    (hoff : ∀ l ∈ ls, 0 ≤ l.offset) (hs : ∀ l ∈ ls, l.shape = shape) :
    ∃ (ms : List Layout) (e : List (List Nat)), Layout.toColMajorMany dflt ls .A = .ok ms ∧
      e.Perm (all .C shape) ∧
      List.Forall₂ (fun l m => (all .F m.shape).map m.addr = e.map l.addr) ls ms := by
  cases ls with
  | nil => exact ⟨[], all .C shape, rfl, List.Perm.refl _, .nil⟩
  | cons l0 rest =>
    have h0 : l0.shape = shape := hs l0 List.mem_cons_self
    have hany : (rest.any fun l => l.shape ≠ l0.shape) = false := by
      rw [List.any_eq_false]
      intro l hlm
      simp [h0, hs l (List.mem_cons_of_mem _ hlm)]
    have hif : ¬ ((rest.any fun l => l.shape ≠ l0.shape) = true) := by rw [hany]; simp
    have hunf : Layout.toColMajorMany dflt (l0 :: rest) .A =
        (if (rest.any fun l => l.shape ≠ l0.shape) = true then .error .invalidLayout else
          if (l0 :: rest).all Layout.cContig || (l0 :: rest).all Layout.fContig then
            (l0 :: rest).mapM Layout.flatB
          else match dflt with
            | .C => (l0 :: rest).mapM fun l => .ok l.reverseAxes
            | .F => (l0 :: rest).mapM fun l => .ok l) := rfl
    rw [hunf, if_neg hif]
    have flat : ∀ o : Order, ((l0 :: rest).all fun l => (match o with | .C => l.cContig | .F => l.fContig)) = true →
        ∃ (ms : List Layout) (e : List (List Nat)), (l0 :: rest).mapM Layout.flatB = .ok ms ∧
          e.Perm (all .C shape) ∧
          List.Forall₂ (fun l m => (all .F m.shape).map m.addr = e.map l.addr) (l0 :: rest) ms := by
      intro o ha
      have ha := List.all_eq_true.1 ha
      have hnd : ∀ l ∈ l0 :: rest, l.ndim ≠ 0 := by
        intro l hl hc
        apply hr
        rw [← hs l hl]
        have : l.axes = [] := List.length_eq_zero_iff.1 hc
        simp [Layout.shape, this]
      refine ⟨_, all o shape, mapM_eq_map fun l hl => (flatB_contig (hoff l hl) (hnd l hl) (ha l hl)).1,
        perm_all _ _ _, forall₂_map ?_⟩
      intro l hl
      rw [flat_positions, ← hs l hl, (flatB_contig (hoff l hl) (hnd l hl) (ha l hl)).2]
    split
    · rename_i hc
      rcases Bool.or_eq_true_iff.1 hc with hc | hc
      · exact flat .C hc
      · exact flat .F hc
    · cases dflt
      · obtain ⟨h1, h2, -⟩ := joint_C hs
        exact ⟨_, _, mapM_eq_map fun _ _ => rfl, h1, h2⟩
      · obtain ⟨h1, h2, -⟩ := joint_F hs
        refine ⟨_, _, ?_, h1, h2⟩
        have := mapM_eq_map (f := fun l : Layout => (.ok l : Res Layout)) (g := id) (l := l0 :: rest) fun _ _ => rfl
        simpa using this

/-- Order A panics on rank 0, order B is wrong on negative strides: the two remaining gaps of the translation. -/
theorem C28_default_rank0_witness :
    Layout.toColMajorMany .C [⟨[], 3⟩] .A = .error .panic ∧
    (⟨[⟨3, -1⟩], 2⟩ : Layout).Valid ∧
    (⟨[⟨3, -1⟩], 2⟩ : Layout).toColMajor .C .B = .ok ⟨[⟨3, 1⟩], 2⟩ ∧
    positions .C ⟨[⟨3, 1⟩], 2⟩ = [2, 3, 4] ∧ positions .C ⟨[⟨3, -1⟩], 2⟩ = [2, 1, 0] := by
  refine ⟨by decide, by decide, by decide, by decide, by decide⟩

example : (⟨[⟨2, 3⟩, ⟨3, 1⟩], 5⟩ : Layout).Valid ∧ (⟨[⟨2, 1⟩, ⟨3, 2⟩], 0⟩ : Layout).Valid ∧
    Layout.toColMajorMany .C [⟨[⟨2, 3⟩, ⟨3, 1⟩], 5⟩, ⟨[⟨2, 1⟩, ⟨3, 2⟩], 0⟩] .K =
      .ok [⟨[⟨3, 1⟩, ⟨2, 3⟩], 5⟩, ⟨[⟨3, 2⟩, ⟨2, 1⟩], 0⟩] := by
  refine ⟨by decide, by decide, by decide⟩

/-- Layouts of different shapes are rejected, whatever the order. -/
theorem C28_shape_mismatch (dflt : Order) (ls : List Layout) (o : IterOrder) (l l' : Layout) (h : l ∈ ls)
    (h' : l' ∈ ls) (hne : l.shape ≠ l'.shape) :
    Layout.toColMajorMany dflt ls o = .error .invalidLayout := by
  cases ls with
  | nil => simp at h
  | cons l0 rest =>
    unfold Layout.toColMajorMany
    show (if _ then _ else _) = _
    rw [if_pos]
    by_contra hc
    have hall : ∀ x ∈ l0 :: rest, x.shape = l0.shape := by
      intro x hx
      rcases List.mem_cons.1 hx with rfl | hx
      · rfl
      · by_contra hx'
        apply hc
        rw [List.any_eq_true]
        exact ⟨x, hx, by simpa using hx'⟩
    exact hne ((hall l h).trans (hall l' h').symm)

/-! ## C29 -/

theorem foldl_min_le (xs : List Nat) (a : Nat) : xs.foldl min a ≤ a ∧ ∀ x ∈ xs, xs.foldl min a ≤ x := by
  induction xs generalizing a with
  | nil => simp
  | cons y ys ih =>
    obtain ⟨h1, h2⟩ := ih (min a y)
    simp only [List.foldl_cons, List.mem_cons, forall_eq_or_imp]
    refine ⟨by omega, by omega, h2⟩

/-- The split into outer layouts and a contiguous inner block of `n` elements visits, for every operand in
the same order, exactly the positions of the full traversal: for each outer index `j`, the block
`p, p + 1, …, p + n - 1` starting at the operand's outer position `p`. All outer layouts have one shape, so
the blocks of the operands belong together. -/
theorem C29_contiguous_block (shape : List Nat) (hz : 0 ∉ shape) (ls outer : List Layout) (n : Nat)
    (hs : ∀ l ∈ ls, l.shape = shape) (h : Layout.withContig ls = (outer, n)) (hn : n ≠ 0) :
    ∃ oshape, (∀ m ∈ outer, m.shape = oshape) ∧ n * oshape.prod = shape.prod ∧
      List.Forall₂ (fun l m => (all .F l.shape).map l.addr =
        (all .F oshape).flatMap fun j => (List.range n).map fun (t : Nat) => m.addr j + (t : Int)) ls outer := by
  cases ls with
  | nil =>
    simp only [Layout.withContig, Prod.mk.injEq] at h
    omega
  | cons l0 rest =>
    unfold Layout.withContig at h
    simp only at h
    generalize hk : (rest.map Layout.ndimOfFContig).foldl min l0.ndimOfFContig = k at h
    have hle : ∀ l ∈ l0 :: rest, k ≤ l.ndimOfFContig := by
      have := foldl_min_le (rest.map Layout.ndimOfFContig) l0.ndimOfFContig
      rw [hk] at this
      intro l hl
      rcases List.mem_cons.1 hl with rfl | hl
      · exact this.1
      · exact this.2 _ (List.mem_map_of_mem hl)
    split at h
    · simp only [Prod.mk.injEq] at h; omega
    · simp only [Prod.mk.injEq] at h
      obtain ⟨rfl, rfl⟩ := h
      rw [hs l0 List.mem_cons_self]
      refine ⟨shape.drop k, ?_, ?_, ?_⟩
      · intro m hm
        obtain ⟨l, hl, rfl⟩ := List.mem_map.1 hm
        rw [← hs l hl]
        simp [Layout.shape]
      · rw [← List.prod_append, List.take_append_drop]
      · apply forall₂_map
        intro l hl
        have hsl := hs l hl
        rw [contig_positions (hle l hl) (by rw [hsl]; exact hz)]
        have e2 : (⟨l.axes.drop k, l.offset⟩ : Layout).shape = shape.drop k := by
          rw [← hsl]; simp [Layout.shape]
        rw [e2, hsl]

example : Layout.withContig [⟨[⟨2, 1⟩, ⟨3, 2⟩, ⟨4, 30⟩], 5⟩, ⟨[⟨2, 1⟩, ⟨3, 2⟩, ⟨4, 6⟩], 0⟩] =
    ([⟨[⟨4, 30⟩], 5⟩, ⟨[⟨4, 6⟩], 0⟩], 6) := by decide

end Rstsr
