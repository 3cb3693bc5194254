import Verif.Thm.Copy
import Verif.Thm.Rearrange
/-!
# C35: the storage order of copies made with the flags `A` and `K`

`C35_asarray_default`: the flag `A` keeps row-major and column-major tensors as they are and takes the default
order of the device for all others. `C35_asarray_keep`: the flag `K` keeps the order in which the elements lie
in memory.
-/
namespace Rstsr
open Spec
variable {α : Type}

/-- The elements lie in memory without gaps in the order `o`, from the offset on. -/
def LiesIn (o : Order) (shape : List Nat) (stride : List Int) (offset : Int) : Prop :=
  ∀ idx, InRange idx shape → position stride offset idx = offset + rank o shape idx

/-- Flag `A`: a tensor whose elements lie in row-major order is copied in row-major order; otherwise, if they
lie in column-major order, in column-major order; otherwise in the default order of the device. -/
theorem C35_asarray_default (dflt : Order) (a c : Tensor α) (h : Tensor.asarray dflt a .A = .ok c) :
    (LiesIn .C a.arr.shape a.layout.stride a.layout.offset → LiesIn .C a.arr.shape c.layout.stride c.layout.offset) ∧
    (¬LiesIn .C a.arr.shape a.layout.stride a.layout.offset → LiesIn .F a.arr.shape a.layout.stride a.layout.offset →
      LiesIn .F a.arr.shape c.layout.stride c.layout.offset) ∧
    (¬LiesIn .C a.arr.shape a.layout.stride a.layout.offset → ¬LiesIn .F a.arr.shape a.layout.stride a.layout.offset →
      LiesIn dflt a.arr.shape c.layout.stride c.layout.offset) ∧ c.layout.offset = 0 := by
  unfold Tensor.asarray at h
  obtain ⟨m, h1, h⟩ := bind_ok.1 h
  obtain ⟨_, -, h⟩ := bind_ok.1 h
  obtain ⟨_, -, h⟩ := bind_ok.1 h
  rw [newF_layout h]
  have rC : LiesIn .C a.arr.shape (Layout.newCContig a.layout.shape 0).stride (Layout.newCContig a.layout.shape 0).offset := by
    intro idx hi
    exact addr_newCContig (show idx.length = a.layout.shape.length from hi.length_eq)
  have rF : LiesIn .F a.arr.shape (Layout.newFContig a.layout.shape 0).stride (Layout.newFContig a.layout.shape 0).offset := by
    intro idx hi
    exact addr_newFContig (show idx.length = a.layout.shape.length from hi.length_eq)
  have triv : 0 ∈ a.layout.shape → ∀ o s f, LiesIn o a.arr.shape s f := by
    intro hz o s f idx hi
    exact absurd (InRange.pos hi 0 hz) (by simp)
  have hc : 0 ∉ a.layout.shape → (LiesIn .C a.arr.shape a.layout.stride a.layout.offset ↔ a.layout.cContig = true) :=
    fun hz => (C06_c_contig_iff a.layout hz).symm
  have hf : 0 ∉ a.layout.shape → (LiesIn .F a.arr.shape a.layout.stride a.layout.offset ↔ a.layout.fContig = true) :=
    fun hz => (C06_f_contig_iff a.layout hz).symm
  unfold Layout.forArrayCopy at h1
  simp only at h1
  have hoff : m.offset = 0 := by
    split at h1
    · cases h1; rfl
    split at h1
    · cases h1; rfl
    cases dflt <;> cases h1 <;> rfl
  by_cases hz : 0 ∈ a.layout.shape
  · exact ⟨fun _ => triv hz _ _ _, fun _ _ => triv hz _ _ _, fun _ _ => triv hz _ _ _, hoff⟩
  rw [hc hz, hf hz]
  refine ⟨fun k => ?_, fun k k2 => ?_, fun k k2 => ?_, hoff⟩
  · rw [if_pos k] at h1; cases h1; exact rC
  · rw [if_neg k, if_pos k2] at h1; cases h1; exact rF
  · rw [if_neg k, if_neg k2] at h1
    cases dflt <;> cases h1
    · exact rC
    · exact rF

/-! ## Flag `K` -/

theorem step_lt {u v x y t c : Nat} (hu : u ≤ c) (hv : v ≤ c) (hc : c < t) :
    u + x * t < v + y * t ↔ x < y ∨ (x = y ∧ u < v) := by
  rcases Nat.lt_trichotomy x y with h | h | h
  · have : (x + 1) * t ≤ y * t := Nat.mul_le_mul_right _ h
    rw [Nat.add_mul, Nat.one_mul] at this
    constructor
    · intro _; exact .inl h
    · intro _; omega
  · subst h; simp
  · have : (y + 1) * t ≤ x * t := Nat.mul_le_mul_right _ h
    rw [Nat.add_mul, Nat.one_mul] at this
    constructor <;> intro _ <;> omega

/-- When every stride exceeds the extent of the axes before it, positions are ordered as column-major ranks. -/
theorem superInc_order : ∀ {axes : List Axis} {c n u v r s : Nat} {i j : List Nat},
    SuperInc c (axes.filter Axis.ess) → (∀ x ∈ axes, 0 < x.str) → InRange i (dims axes) → InRange j (dims axes) →
    u ≤ c → v ≤ c → r < n → s < n → (u < v ↔ r < s) → (v < u ↔ s < r) →
    (((u : Int) + dot i axes < v + dot j axes) ↔ r + n * rankF (dims axes) i < s + n * rankF (dims axes) j) := by
  intro axes
  induction axes with
  | nil =>
    intro c n u v r s i j _ _ hi hj _ _ _ _ h _
    simp [dims, rankF, h]
  | cons a as ih =>
    intro c n u v r s i j hs hp hi hj hu hv hr hs' h1 h2
    match i, j, hi, hj with
    | x :: xs, y :: ys, ⟨hx, hi⟩, ⟨hy, hj⟩ =>
    have ht : 0 < a.str := hp a (by simp)
    obtain ⟨t, hat⟩ := Int.eq_ofNat_of_zero_le ht.le
    have key : ∀ {c' : Nat}, SuperInc c' (as.filter Axis.ess) → u + x * t ≤ c' → v + y * t ≤ c' →
        (u + x * t < v + y * t ↔ r + n * x < s + n * y) → (v + y * t < u + x * t ↔ s + n * y < r + n * x) →
        (((u : Int) + dot (x :: xs) (a :: as) < v + dot (y :: ys) (a :: as)) ↔
          r + n * rankF (dims (a :: as)) (x :: xs) < s + n * rankF (dims (a :: as)) (y :: ys)) := by
      intro c' k1 k2 k3 k4 k5
      have hd : 0 < a.dim := Nat.lt_of_le_of_lt (Nat.zero_le _) hx
      have b1 : r + n * x < n * a.dim := by
        have : n * (x + 1) ≤ n * a.dim := Nat.mul_le_mul_left _ hx
        rw [Nat.mul_add, Nat.mul_one] at this; omega
      have b2 : s + n * y < n * a.dim := by
        have : n * (y + 1) ≤ n * a.dim := Nat.mul_le_mul_left _ hy
        rw [Nat.mul_add, Nat.mul_one] at this; omega
      have := ih k1 (fun z hz => hp z (List.mem_cons_of_mem _ hz)) hi hj k2 k3 b1 b2 k4 k5
      have e1 : (u : Int) + dot (x :: xs) (a :: as) = ((u + x * t : Nat) : Int) + dot xs as := by
        simp only [dot, hat]; push_cast; ring
      have e2 : (v : Int) + dot (y :: ys) (a :: as) = ((v + y * t : Nat) : Int) + dot ys as := by
        simp only [dot, hat]; push_cast; ring
      have e3 : r + n * rankF (dims (a :: as)) (x :: xs) = r + n * x + n * a.dim * rankF (dims as) xs := by
        simp only [dims, List.map_cons, rankF_cons]; ring
      have e4 : s + n * rankF (dims (a :: as)) (y :: ys) = s + n * y + n * a.dim * rankF (dims as) ys := by
        simp only [dims, List.map_cons, rankF_cons]; ring
      rw [e1, e2, e3, e4]
      exact this
    by_cases he : a.ess = true
    · rw [List.filter_cons_of_pos he] at hs
      obtain ⟨hs1, hs2⟩ := hs
      have hta : a.str.natAbs = t := by omega
      rw [hta] at hs1 hs2
      have m1 : x * t ≤ (a.dim - 1) * t := Nat.mul_le_mul_right _ (by have : x < a.dim := hx; omega)
      have m2 : y * t ≤ (a.dim - 1) * t := Nat.mul_le_mul_right _ (by have : y < a.dim := hy; omega)
      refine key hs2 (by omega) (by omega) ?_ ?_
      · rw [step_lt hu hv hs1, Nat.mul_comm n x, Nat.mul_comm n y,
          step_lt (c := n - 1) (by omega) (by omega) (by omega), h1]
      · rw [step_lt hv hu hs1, Nat.mul_comm n x, Nat.mul_comm n y,
          step_lt (c := n - 1) (by omega) (by omega) (by omega), h2]
    · rw [List.filter_cons_of_neg he] at hs
      have hd : a.dim ≤ 1 := by
        simp only [Axis.ess, Bool.and_eq_true, decide_eq_true_eq, not_and_or] at he
        rcases he with he | he <;> omega
      have hx0 : x = 0 := by have : x < a.dim := hx; omega
      have hy0 : y = 0 := by have : y < a.dim := hy; omega
      subst hx0 hy0
      exact key hs (by simpa using hu) (by simpa using hv) (by simpa using h1) (by simpa using h2)

theorem absAxis_of_pos {axes : List Axis} (h : ∀ x ∈ axes, 0 < x.str) : axes.map absAxis = axes := by
  conv_rhs => rw [← List.map_id axes]
  apply List.map_congr_left
  intro x hx
  have := h x hx
  unfold absAxis
  rw [if_neg (by omega)]; rfl

theorem loSum_of_pos {axes : List Axis} (h : ∀ x ∈ axes, 0 < x.str) : loSum axes = 0 := by
  induction axes with
  | nil => rfl
  | cons a as ih =>
    unfold loSum
    rw [ih fun x hx => h x (List.mem_cons_of_mem _ hx), if_pos (h a (by simp))]; rfl

/-- The axes in K order, without those of length 1, satisfy the stride check in the order they stand. -/
theorem greedy_superInc {l : Layout} (hl : l.Valid) (hz : 0 ∉ l.shape) (hp : ∀ x ∈ l.axes, 0 < x.str) :
    SuperInc 0 ((pick l.axes (greedyIndex l)).filter Axis.ess) := by
  have hs : l.size ≠ 0 := fun h => hz (size_zero_iff.1 h)
  have hsort := C26_k_sorted l _ _ hl hs (greedy_keep (valid_iff.1 hl) hs)
  simp only [absAxis_of_pos hp] at hsort
  have hperm : (pick l.axes (greedyIndex l)).Perm l.axes := pick_perm (greedyIndex_perm l)
  obtain ⟨L, hL, hsi⟩ : NoOverlap l.axes := by
    rcases accepted_iff.1 (valid_iff.1 hl) with h | h | h
    · rw [h]; exact ⟨[], by simp, trivial⟩
    · exact absurd h hz
    · exact h.2
  have hdim : ∀ a ∈ L, 1 < a.dim := by
    intro a ha
    have := hL.mem_iff.1 ha
    simp [Axis.ess] at this
    exact this.2.1
  have hpw := hsi.pairwise hdim
  have hLp : L.Perm ((pick l.axes (greedyIndex l)).filter Axis.ess) := hL.trans (hperm.filter _).symm
  have heq : L = (pick l.axes (greedyIndex l)).filter Axis.ess := by
    refine List.Perm.eq_of_pairwise (le := fun a b : Axis => a.str.natAbs ≤ b.str.natAbs) ?_
      (hpw.imp fun h => Nat.le_of_lt h) ?_ hLp
    · intro a b ha hb hab hba
      by_contra hne
      have hbL : b ∈ L := hLp.mem_iff.2 hb
      rcases List.pairwise_iff_getElem.1 hpw with h
      obtain ⟨i, hi, rfl⟩ := List.getElem_of_mem ha
      obtain ⟨j, hj, rfl⟩ := List.getElem_of_mem hbL
      rcases Nat.lt_trichotomy i j with hij | rfl | hij
      · have := h i j hi hj hij; omega
      · exact hne rfl
      · have := h j i hj hi hij; omega
    · have := hsort.filter Axis.ess
      refine List.Pairwise.imp_of_mem ?_ this
      intro x y hx hy h
      have hx := List.mem_filter.1 hx
      have hy := List.mem_filter.1 hy
      have p1 := hp x (hperm.mem_iff.1 hx.1)
      have p2 := hp y (hperm.mem_iff.1 hy.1)
      simp only [Axis.ess, Bool.and_eq_true, decide_eq_true_eq] at hx hy
      have := h (by omega) (by omega) (by omega) (by omega)
      omega
  rw [← heq]; exact hsi

theorem pickIdx_back {n : Nat} {p i : List Nat} (hp : p.Perm (List.range n)) (hi : i.length = n) :
    pickIdx (pickIdx i p) (Layout.reversedPermute p) = i := by
  rw [reversedPermute_eq hp]
  unfold pickIdx
  rw [List.map_map]
  apply List.ext_getElem
  · simp [hi]
  · intro k k1 k2
    have hk : k < n := by simpa using k1
    have hmem : k ∈ p := hp.mem_iff.2 (List.mem_range.2 hk)
    have hidx := List.idxOf_lt_length_of_mem hmem
    simp [List.getD_eq_getElem?_getD, List.getElem?_eq_getElem hidx, List.getElem?_eq_getElem k2]

/-- Flag `K` (also `to_owned`, `clone`): the copy keeps the order in which the elements lie in memory. The
tensor may have gaps and any order of its axes; its strides are positive. -/
theorem C35_asarray_keep (dflt : Order) (a c : Tensor α) (ha : a.WF) (hp : ∀ x ∈ a.layout.stride, (0 : Int) < x)
    (h : Tensor.asarray dflt a .K = .ok c) (i j : List Nat) (hi : InRange i a.arr.shape) (hj : InRange j a.arr.shape) :
    position c.layout.stride c.layout.offset i < position c.layout.stride c.layout.offset j ↔
      position a.layout.stride a.layout.offset i < position a.layout.stride a.layout.offset j := by
  have hl := ha.fit.valid
  have hi : InRange i a.layout.shape := hi
  have hj : InRange j a.layout.shape := hj
  unfold Tensor.asarray at h
  obtain ⟨m, h1, h⟩ := bind_ok.1 h
  obtain ⟨_, -, h⟩ := bind_ok.1 h
  obtain ⟨_, -, h⟩ := bind_ok.1 h
  rw [newF_layout h]
  generalize a.layout = l at *
  have hp : ∀ x ∈ l.axes, 0 < x.str := fun x hx => hp _ (List.mem_map.2 ⟨x, hx, rfl⟩)
  have hz : 0 ∉ l.shape := fun hz => absurd (hi.pos 0 hz) (by simp)
  have hs : l.size ≠ 0 := fun h => hz (size_zero_iff.1 h)
  have hperm := greedyIndex_perm l
  unfold Layout.forArrayCopy at h1
  simp only [greedy_keep (valid_iff.1 hl) hs, ok_bind, absAxis_of_pos hp] at h1
  have hsh : (⟨pick l.axes (greedyIndex l), l.offset + loSum l.axes⟩ : Layout).shape = dims (pick l.axes (greedyIndex l)) := rfl
  rw [hsh] at h1
  have hnl : (Layout.newFContig (dims (pick l.axes (greedyIndex l))) 0).ndim = l.ndim := by
    have e := congrArg List.length (shape_newFContig (dims (pick l.axes (greedyIndex l))) 0)
    have e3 := hperm.length_eq
    simp only [Layout.shape, List.length_map, List.length_range, dims, pick] at e e3
    exact e.trans e3
  have hrev : (Layout.reversedPermute (greedyIndex l)).Perm (List.range l.ndim) := by
    rw [reversedPermute_eq hperm]; exact idxOf_perm hperm
  rw [transpose_perm (by rw [hnl]; exact hrev)] at h1
  cases h1
  have addr : ∀ k, InRange k l.shape →
      (⟨pick (Layout.newFContig (dims (pick l.axes (greedyIndex l))) 0).axes (Layout.reversedPermute (greedyIndex l)),
        (Layout.newFContig (dims (pick l.axes (greedyIndex l))) 0).offset⟩ : Layout).addr k =
      rankF (dims (pick l.axes (greedyIndex l))) (pickIdx k (greedyIndex l)) := by
    intro k hk
    obtain ⟨g1, -⟩ := pick_addr (axes := l.axes) (p := greedyIndex l) hperm hk
    have hF := shape_newFContig (dims (pick l.axes (greedyIndex l))) 0
    obtain ⟨-, g2⟩ := pick_addr (axes := (Layout.newFContig (dims (pick l.axes (greedyIndex l))) 0).axes)
      (p := Layout.reversedPermute (greedyIndex l)) (idx := pickIdx k (greedyIndex l))
      (by have : (Layout.newFContig (dims (pick l.axes (greedyIndex l))) 0).axes.length = l.ndim := hnl
          rw [this]; exact hrev) (by show InRange _ (Layout.shape _); rw [hF]; exact g1)
    rw [pickIdx_back hperm (by simpa [Layout.shape, Layout.ndim] using hk.length_eq)] at g2
    rw [addr_mk, g2]
    have := addr_newFContig (s := dims (pick l.axes (greedyIndex l))) (o := 0) g1.length_eq
    rw [addr_eq] at this
    simpa using this
  show Layout.addr _ i < Layout.addr _ j ↔ l.addr i < l.addr j
  rw [addr i hi, addr j hj, addr_eq, addr_eq]
  obtain ⟨gi, di⟩ := pick_addr (axes := l.axes) (p := greedyIndex l) hperm hi
  obtain ⟨gj, dj⟩ := pick_addr (axes := l.axes) (p := greedyIndex l) hperm hj
  have := superInc_order (n := 1) (u := 0) (v := 0) (r := 0) (s := 0) (greedy_superInc hl hz hp)
    (fun x hx => hp x ((pick_perm hperm).mem_iff.1 hx)) gi gj (Nat.le_refl _) (Nat.le_refl _) (by omega) (by omega)
    (by simp) (by simp)
  rw [di, dj] at this
  simp only [Nat.zero_add, Nat.one_mul] at this
  constructor
  · intro h
    have := this.2 (by exact_mod_cast h)
    omega
  · intro h
    have := this.1 (by omega)
    exact_mod_cast this

/-- A transposed matrix with gaps: the copy with the flag `K` keeps the order of the elements in memory, the
one with the flag `A` takes the default order. -/
example : (⟨[0, 1, 2, 3, 4, 5, 6, 7], ⟨[⟨2, 1⟩, ⟨3, 3⟩], 0⟩⟩ : Tensor Nat).WF ∧
    Tensor.asarray .C (⟨[0, 1, 2, 3, 4, 5, 6, 7], ⟨[⟨2, 1⟩, ⟨3, 3⟩], 0⟩⟩ : Tensor Nat) .K =
      .ok ⟨[0, 1, 3, 4, 6, 7], ⟨[⟨2, 1⟩, ⟨3, 2⟩], 0⟩⟩ ∧
    Tensor.asarray .C (⟨[0, 1, 2, 3, 4, 5, 6, 7], ⟨[⟨2, 1⟩, ⟨3, 3⟩], 0⟩⟩ : Tensor Nat) .A =
      .ok ⟨[0, 3, 6, 1, 4, 7], ⟨[⟨2, 3⟩, ⟨3, 1⟩], 0⟩⟩ := by
  refine ⟨⟨by decide, by decide⟩, by decide +kernel, by decide +kernel⟩

end Rstsr
