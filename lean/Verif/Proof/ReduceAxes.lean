import Verif.Proof.Composition
import Verif.Proof.Reduce
import Verif.Proof.Writes
import Verif.Proof.Slices
/-! # Reductions along axes -/
namespace Rstsr
open Spec

/-! ## Blocks of a traversal -/

theorem allF_rank {γ : Type} (s : List Nat) (g : Nat → γ) :
    (all .F s).map (fun j => g (rankF s j)) = (List.range s.prod).map g := by
  have := congrArg (List.map g) (map_rank_allF s)
  rw [List.map_map] at this
  exact this

/-- A traversal whose first axes are packed is a sequence of blocks. -/
theorem pick_blocks {s c d : List Nat} (hnd : (c ++ d).Nodup) (hlt : ∀ a ∈ c ++ d, a < s.length)
    (hu : ∀ i < s.length, i ∉ c ++ d → s.getD i 0 = 1) {m : Layout} (hm : m.shape = s) (hp : Packed 1 (pick m.axes c)) :
    ((all .F ((c ++ d).map fun a => s.getD a 0)).map (fullIdx s.length (c ++ d))).map m.addr =
      (blockList (all .F (d.map fun a => s.getD a 0)) (c.map fun a => s.getD a 0).prod).map fun q =>
        (⟨pick m.axes d, m.offset⟩ : Layout).addr q.1 + (q.2 : Int) := by
  have hj := (joint_pick hnd hlt hu).2 m hm
  have e1 : ((all .F ((c ++ d).map fun a => s.getD a 0)).map (fullIdx s.length (c ++ d))).map m.addr =
      (all .F ((c ++ d).map fun a => s.getD a 0)).map (⟨pick m.axes (c ++ d), m.offset⟩ : Layout).addr := by
    rw [List.map_map]
    apply List.map_congr_left
    intro j hj'
    exact (hj j (mem_all.1 hj')).symm
  rw [e1]
  have e2 : pick m.axes (c ++ d) = pick m.axes c ++ pick m.axes d := by unfold pick; rw [List.map_append]
  rw [List.map_append, show all .F ((c.map fun a => s.getD a 0) ++ d.map fun a => s.getD a 0) =
    allF ((c.map fun a => s.getD a 0) ++ d.map fun a => s.getD a 0) from rfl, allF_append, List.map_flatMap, blockList,
    List.map_flatMap]
  congr 1
  funext j
  rw [List.map_map, List.map_map, ← allF_rank (c.map fun a => s.getD a 0)]
  apply List.map_congr_left
  intro i hi
  have hi : InRange i (c.map fun a => s.getD a 0) := (mem_all (o := .F)).1 hi
  have hd : dims (pick m.axes c) = c.map fun a => s.getD a 0 := by rw [dims_pick, show dims m.axes = s from hm]
  have hl : i.length = (pick m.axes c).length := by rw [pick_length]; simpa using hi.length_eq
  simp only [Function.comp_apply, addr_eq]
  rw [e2, dot_append hl, packed_dot hp (by rw [hd]; exact hi), hd]
  ring

/-- A non-empty layout without broadcast axes, with its positions. -/
structure Walk (l : Layout) : Prop where
  valid : l.Valid
  off : 0 ≤ l.offset
  plain : Plain l

namespace Walk
variable {l : Layout} (h : Walk l)
include h

theorem fit : Fit l.shape l := ⟨h.valid, h.off, rfl⟩

theorem comp : l.axesComposition.2.2 ++ l.axesDiscontig = l.movingAxes := (composition_spec h.valid h.plain).1

theorem lt {a : Nat} (ha : a ∈ l.movingAxes) : a < l.shape.length := by
  have := (mem_moving.1 ha).1
  simpa [Layout.shape, Layout.ndim] using this

theorem unit' {i : Nat} (hi : i < l.shape.length) (hm : i ∉ l.movingAxes) : l.shape.getD i 0 = 1 :=
  h.plain.unit (by simpa [Layout.shape, Layout.ndim] using hi) hm

/-- The size of the contiguous part. -/
theorem size_contig : ∃ n, axesProduct l l.axesComposition.2.2 = .ok n ∧
    n = (l.axesComposition.2.2.map fun a => l.shape.getD a 0).prod ∧ n ≠ 0 ∧ (n ≤ 1 → l.axesComposition.2.2 = []) := by
  have hmem : ∀ a ∈ l.axesComposition.2.2, a ∈ l.movingAxes := fun a ha => by rw [← h.comp]; exact List.mem_append_left _ ha
  have hd : ∀ a ∈ l.axesComposition.2.2, 2 ≤ l.shape.getD a 0 := by
    intro a ha
    have h1 := mem_moving.1 (hmem a ha)
    have h2 := (h.plain.getD h1.1).1
    have h3 := h1.2.1
    rw [show l.shape.getD a 0 = (l.axes.getD a default).dim from dims_getD _ _]
    omega
  refine ⟨_, ?_, rfl, ?_, ?_⟩
  · unfold axesProduct
    rw [mapM_eq_map (g := fun a => l.shape.getD a 0)]
    · rfl
    · intro a ha
      have := h.lt (hmem a ha)
      rw [readAt_ok, List.getD_eq_getElem?_getD, List.getElem?_eq_getElem this]
      rfl
  · apply prod_ne_zero_iff.2
    intro x hx
    obtain ⟨a, ha, rfl⟩ := List.mem_map.1 hx
    have := hd a ha
    omega
  · intro h1
    generalize l.axesComposition.2.2 = c at hd h1
    cases c with
    | nil => rfl
    | cons a c =>
      exfalso
      rw [List.map_cons, List.prod_cons] at h1
      have k1 := hd a (by simp)
      have k2 : (c.map fun a => l.shape.getD a 0).prod ≠ 0 := by
        apply prod_ne_zero_iff.2
        intro x hx
        obtain ⟨b, hb, rfl⟩ := List.mem_map.1 hx
        have := hd b (List.mem_cons_of_mem _ hb)
        omega
      have := Nat.mul_le_mul k1 (Nat.pos_of_ne_zero k2)
      omega

/-- The sizes of the broadcast part are empty products. -/
theorem size_broadcast (m : Layout) : axesProduct m l.axesComposition.2.1 = .ok 1 := by
  rw [composition_broadcast h.plain]; rfl

/-- Traversals of layouts of the same shape along the moving axes, and block by block. -/
theorem steps : ∃ (e J : List (List Nat)), e.Perm (all .C l.shape) ∧
    (∀ m : Layout, Walk m ∨ m.Valid ∧ 0 ≤ m.offset → m.shape = l.shape →
      splitSel m (l.axesComposition.2.2 ++ l.axesDiscontig) = .ok ⟨pick m.axes l.movingAxes, m.offset⟩ ∧
      colItems ⟨pick m.axes l.movingAxes, m.offset⟩ = .ok (e.map m.pos) ∧
      splitSel m l.axesDiscontig = .ok ⟨pick m.axes l.axesDiscontig, m.offset⟩ ∧
      splitSel m l.axesComposition.2.2 = .ok ⟨pick m.axes l.axesComposition.2.2, m.offset⟩ ∧
      (Packed 1 (pick m.axes l.axesComposition.2.2) →
        colItems ⟨pick m.axes l.axesDiscontig, m.offset⟩ =
          .ok (J.map (⟨pick m.axes l.axesDiscontig, m.offset⟩ : Layout).pos) ∧
        ∀ n, axesProduct l l.axesComposition.2.2 = .ok n →
          e.map m.pos = (blockList J n).map fun q => (⟨pick m.axes l.axesDiscontig, m.offset⟩ : Layout).pos q.1 + q.2)) := by
  have hc := h.comp
  have hnd : (l.axesComposition.2.2 ++ l.axesDiscontig).Nodup := by rw [hc]; exact moving_nodup l
  have hlt : ∀ a ∈ l.axesComposition.2.2 ++ l.axesDiscontig, a < l.shape.length := by rw [hc]; exact fun a ha => h.lt ha
  have hu : ∀ i < l.shape.length, i ∉ l.axesComposition.2.2 ++ l.axesDiscontig → l.shape.getD i 0 = 1 := by
    rw [hc]; exact fun i hi hm => h.unit' hi hm
  obtain ⟨j1, j2⟩ := joint_pick hnd hlt hu
  obtain ⟨n, n1, n2, n3, -⟩ := h.size_contig
  refine ⟨(all .F ((l.axesComposition.2.2 ++ l.axesDiscontig).map fun a => l.shape.getD a 0)).map
    (fullIdx l.shape.length (l.axesComposition.2.2 ++ l.axesDiscontig)),
    all .F (l.axesDiscontig.map fun a => l.shape.getD a 0), j1, ?_⟩
  intro m hm hs
  have hm : m.Valid ∧ 0 ≤ m.offset := by
    rcases hm with h' | h'
    · exact ⟨h'.valid, h'.off⟩
    · exact h'
  have hz : 0 ∉ m.shape := by rw [hs]; exact h.plain.pos
  have hmn : m.ndim = l.shape.length := by rw [← hs]; simp [Layout.shape, Layout.ndim]
  have hnn : ∀ i, InRange i l.shape → 0 ≤ m.addr i := (⟨hm.1, hm.2, hs⟩ : Fit l.shape m).nonneg
  have hdm : dims m.axes = l.shape := hs
  refine ⟨?_, ?_, ?_, ?_, ?_⟩
  · rw [splitSel_ok hm.1 hm.2 hz hnd (by rw [hmn]; exact hlt), hc]
  · refine colItems_of j1 ?_ hnn
    rw [List.map_map, show (⟨pick m.axes l.movingAxes, m.offset⟩ : Layout).shape = l.movingAxes.map fun a => l.shape.getD a 0 by
      show dims _ = _; rw [dims_pick, hdm], ← hc]
    apply List.map_congr_left
    intro j hj
    exact j2 m hs j (mem_all.1 hj)
  · exact splitSel_ok hm.1 hm.2 hz hnd.of_append_right (by rw [hmn]; exact fun a ha => hlt a (List.mem_append_right _ ha))
  · exact splitSel_ok hm.1 hm.2 hz hnd.of_append_left (by rw [hmn]; exact fun a ha => hlt a (List.mem_append_left _ ha))
  · intro hp
    have hb := pick_blocks hnd hlt hu hs hp
    rw [← n2] at hb
    have hj0 : ∀ j ∈ all .F (l.axesDiscontig.map fun a => l.shape.getD a 0),
        0 ≤ (⟨pick m.axes l.axesDiscontig, m.offset⟩ : Layout).addr j := by
      intro j hj
      have hmem : (⟨pick m.axes l.axesDiscontig, m.offset⟩ : Layout).addr j + ((0 : Nat) : Int) ∈
          (blockList (all .F (l.axesDiscontig.map fun a => l.shape.getD a 0)) n).map fun q =>
            (⟨pick m.axes l.axesDiscontig, m.offset⟩ : Layout).addr q.1 + (q.2 : Int) :=
        List.mem_map.2 ⟨(j, 0), List.mem_flatMap.2 ⟨j, hj, List.mem_map.2 ⟨0, List.mem_range.2 (by omega), rfl⟩⟩, rfl⟩
      rw [← hb] at hmem
      obtain ⟨i, hi, e⟩ := List.mem_map.1 hmem
      have := hnn i (mem_all.1 (j1.mem_iff.1 hi))
      omega
    have hsd : (⟨pick m.axes l.axesDiscontig, m.offset⟩ : Layout).shape = l.axesDiscontig.map fun a => l.shape.getD a 0 := by
      show dims _ = _; rw [dims_pick, hdm]
    refine ⟨?_, ?_⟩
    · rw [colItems_ok, positions_eq, hsd]
      intro j hj
      rw [hsd] at hj
      exact hj0 j (mem_all.2 hj)
    · intro n' hn'
      rw [n1] at hn'
      cases hn'
      have := congrArg (List.map Int.toNat) hb
      rw [List.map_map, List.map_map] at this
      rw [show m.pos = Int.toNat ∘ m.addr from rfl, List.map_map, this, List.map_map]
      apply List.map_congr_left
      rintro ⟨j, t⟩ hq
      obtain ⟨j', hj', hq⟩ := List.mem_flatMap.1 hq
      obtain ⟨t', -, hq⟩ := List.mem_map.1 hq
      cases hq
      have := hj0 j hj'
      simp only [Function.comp_apply, Layout.pos]
      omega

theorem packed : Packed 1 (pick l.axes l.axesComposition.2.2) := (composition_spec h.valid h.plain).2.1

/-- The contiguous axes are contiguous in the layout of the output as well. -/
theorem packed_out (dflt : Order) {lo : Layout} (ho : l.forArrayCopy dflt .K = .ok lo) :
    Packed 1 (pick lo.axes l.axesComposition.2.2) := by
  have := copyK_packed dflt h.valid h.plain ho
  rw [← h.comp] at this
  unfold pick at this
  rw [List.map_append] at this
  exact packed_append this

end Walk

/-! ## The value of one cell of the output -/

section
variable {α σ ω : Type}

/-- The partial result of the cell at the sum of two positions. -/
def cellAt (R : Reducer α σ ω) (a : List α) (off : Int) (x y : Nat) : σ := cellVal R a ((x : Int) + y - off).toNat

/-- The combination over all reduced indices. -/
def cellSum (R : Reducer α σ ω) (a : List α) (off : Int) (ls : Layout) (x : Nat) : σ :=
  total R.init R.fSum ((all .C ls.shape).map fun i => cellAt R a off x (ls.pos i))

/-- All the cells combined for the position `x` exist. -/
def CellsAt (a : List α) (off : Int) (ls : Layout) (x : Nat) : Prop :=
  ∀ i, InRange i ls.shape → 0 ≤ (x : Int) + ls.pos i - off ∧ ((x : Int) + ls.pos i - off).toNat < a.length

theorem atOffset_ok {off : Int} {x y : Nat} (h : 0 ≤ (x : Int) + y - off) :
    atOffset off x y = .ok ((x : Int) + y - off).toNat := by
  unfold atOffset
  simp only
  rw [if_neg (by omega)]

variable {R : Reducer α σ ω} (M : Monoidal R.init R.f R.fSum) {a : List α} {off : Int} {ls : Layout} {x : Nat}
include M

theorem cellSum_perm {e : List (List Nat)} (he : e.Perm (all .C ls.shape)) :
    total R.init R.fSum ((e.map ls.pos).map (cellAt R a off x)) = cellSum R a off ls x := by
  unfold cellSum
  rw [List.map_map]
  exact total_perm M (he.map _)

/-- The step of route S at one item. -/
theorem step_block {e J : List (List Nat)} {n : Nat} {p : List Nat → Nat} (he : e.Perm (all .C ls.shape)) (hn : n ≠ 0)
    (hb : e.map ls.pos = (blockList J n).map fun q => p q.1 + q.2) (hx : CellsAt a off ls x) {j : List Nat} (hj : j ∈ J)
    (acc : σ) :
    (do stepBlock R a n acc (← atOffset off x (p j))) =
      .ok (R.fSum acc (total R.init R.fSum ((List.range n).map fun t => cellAt R a off x (p j + t)))) := by
  have key : ∀ t < n, 0 ≤ (x : Int) + ((p j + t : Nat) : Int) - off ∧
      ((x : Int) + ((p j + t : Nat) : Int) - off).toNat < a.length := by
    intro t ht
    have hm : p j + t ∈ e.map ls.pos := by
      rw [hb]; exact List.mem_map.2 ⟨(j, t), mem_blockList hj ht, rfl⟩
    obtain ⟨i, hi, e1⟩ := List.mem_map.1 hm
    have := hx i (mem_all.1 (he.mem_iff.1 hi))
    rwa [e1] at this
  have k0 := key 0 (by omega)
  have k1 := key (n - 1) (by omega)
  simp only [Nat.add_zero] at k0
  rw [atOffset_ok k0.1, ok_bind, stepBlock_ok M (by omega)]
  congr 3
  apply List.map_congr_left
  intro t _
  unfold cellAt
  congr 1
  omega

theorem value_blocks {e J : List (List Nat)} {n : Nat} {p : List Nat → Nat} (he : e.Perm (all .C ls.shape))
    (hb : e.map ls.pos = (blockList J n).map fun q => p q.1 + q.2) :
    total R.init R.fSum ((J.map p).map fun y => total R.init R.fSum ((List.range n).map fun t => cellAt R a off x (y + t))) =
      cellSum R a off ls x := by
  rw [List.map_map]
  have := total_blocks M J n fun q => cellAt R a off x (p q.1 + q.2)
  rw [show ((fun y => total R.init R.fSum ((List.range n).map fun t => cellAt R a off x (y + t))) ∘ p) =
    fun j => total R.init R.fSum ((List.range n).map fun t => cellAt R a off x (p j + t)) from rfl, this,
    ← cellSum_perm M he, hb, List.map_map]
  rfl

theorem value_S {e J : List (List Nat)} {n : Nat} {p : List Nat → Nat} (he : e.Perm (all .C ls.shape)) (hn : n ≠ 0)
    (hb : e.map ls.pos = (blockList J n).map fun q => p q.1 + q.2) (hx : CellsAt a off ls x) :
    foldRes (fun acc z => do stepBlock R a n acc (← atOffset off x z)) R.init (J.map p) = .ok (cellSum R a off ls x) := by
  rw [foldRes_init M (w := fun y => total R.init R.fSum ((List.range n).map fun t => cellAt R a off x (y + t)))]
  · rw [value_blocks M he hb]
  · intro z hz acc
    obtain ⟨j, hj, rfl⟩ := List.mem_map.1 hz
    exact step_block M he hn hb hx hj acc

theorem step_cell (hx : CellsAt a off ls x) {i : List Nat} (hi : InRange i ls.shape) (acc : σ) :
    (do stepAt R a acc (← atOffset off x (ls.pos i))) = .ok (R.fSum acc (cellAt R a off x (ls.pos i))) := by
  have := hx i hi
  rw [atOffset_ok this.1, ok_bind, stepAt_ok M this.2]
  rfl

theorem value_D {e : List (List Nat)} (he : e.Perm (all .C ls.shape)) (hx : CellsAt a off ls x) :
    foldRes (fun acc z => do stepAt R a acc (← atOffset off x z)) R.init (e.map ls.pos) = .ok (cellSum R a off ls x) := by
  rw [foldRes_init M (w := cellAt R a off x)]
  · rw [cellSum_perm M he]
  · intro z hz acc
    obtain ⟨i, hi, rfl⟩ := List.mem_map.1 hz
    exact step_cell M hx (mem_all.1 (he.mem_iff.1 hi)) acc

/-! ## The accumulators of a row -/

theorem chunk_fold (n start : Nat) (zs : List Nat)
    (hz : ∀ z ∈ zs, 0 ≤ (x : Int) + z - off ∧ ((x : Int) + z - off).toNat + start + n ≤ a.length) (V : Nat → σ) :
    foldRes (fun v z => do
      let k ← atOffset off x z
      let xs ← sliceAt a (k + start) n
      return List.zipWith R.f v xs) ((List.range n).map V) zs =
      .ok ((List.range n).map fun t => R.fSum (V t) (total R.init R.fSum (zs.map fun z => cellAt R a off (x + start + t) z))) := by
  induction zs generalizing V with
  | nil =>
    simp only [foldRes, List.map_nil, total]
    congr 1
    apply List.map_congr_left
    intro t _
    exact (Monoidal.unit' M _).symm
  | cons z zs ih =>
    obtain ⟨k1, k2⟩ := hz z (by simp)
    have hs : sliceAt a (((x : Int) + z - off).toNat + start) n = .ok ((a.drop (((x : Int) + z - off).toNat + start)).take n) := by
      unfold sliceAt; rw [if_neg (by omega)]
    rw [foldRes]
    simp only [atOffset_ok k1, ok_bind, hs, pure_bind]
    have e : List.zipWith R.f ((List.range n).map V) ((a.drop (((x : Int) + z - off).toNat + start)).take n) =
        (List.range n).map fun t => R.fSum (V t) (cellAt R a off (x + start + t) z) := by
      apply List.ext_getElem
      · simp; omega
      · intro t t1 t2
        simp only [List.length_map, List.length_range] at t2
        simp only [List.getElem_zipWith, List.getElem_map, List.getElem_range, List.getElem_take, List.getElem_drop]
        rw [M.step]
        congr 1
        unfold cellAt cellVal
        have : (((x + start + t : Nat) : Int) + z - off).toNat = ((x : Int) + z - off).toNat + start + t := by omega
        rw [this, List.getElem?_eq_getElem (by omega)]
        rfl
    rw [e, ih fun z' hz' => hz z' (by simp [hz'])]
    congr 1
    apply List.map_congr_left
    intro t _
    rw [M.assoc, List.map_cons, total]

theorem chunkAcc_ok (n start : Nat) (zs : List Nat)
    (hz : ∀ z ∈ zs, 0 ≤ (x : Int) + z - off ∧ ((x : Int) + z - off).toNat + start + n ≤ a.length) :
    chunkAcc R a off x start n zs =
      .ok ((List.range n).map fun t => total R.init R.fSum (zs.map fun z => cellAt R a off (x + start + t) z)) := by
  unfold chunkAcc
  rw [show List.replicate n R.init = (List.range n).map fun _ => R.init by
    rw [List.map_const', List.length_range]]
  refine (chunk_fold M n start zs hz fun _ => R.init).trans ?_
  congr 1
  apply List.map_congr_left
  intro t _
  rw [M.unit]

theorem rowAcc_ok {chunk : Nat} (hc : 0 < chunk) (n : Nat) (zs : List Nat)
    (hz : ∀ z ∈ zs, 0 ≤ (x : Int) + z - off ∧ ((x : Int) + z - off).toNat + n ≤ a.length) :
    rowAcc R a chunk off x n zs =
      .ok ((List.range n).map fun t => total R.init R.fSum (zs.map fun z => cellAt R a off (x + t) z)) := by
  have hk : n ≤ (n + chunk - 1) / chunk * chunk := by
    have h1 := Nat.div_add_mod (n + chunk - 1) chunk
    have h2 := Nat.mod_lt (n + chunk - 1) hc
    rw [Nat.mul_comm] at h1
    omega
  unfold rowAcc
  rw [mapM_eq_map (g := fun k => (List.range (min chunk (n - k * chunk))).map fun t =>
    total R.init R.fSum (zs.map fun z => cellAt R a off (x + (k * chunk + t)) z))]
  · simp only [ok_bind, pure_eq_ok]
    congr 1
    have := congrArg (List.map fun t => total R.init R.fSum (zs.map fun z => cellAt R a off (x + t) z))
      (chunks_eq chunk n ((n + chunk - 1) / chunk))
    rw [Nat.min_eq_left hk, List.map_flatMap] at this
    rw [← this, List.flatMap_def]
    congr 1
    apply List.map_congr_left
    intro k _
    rw [List.map_map]
    rfl
  · intro k hk'
    rw [chunkAcc_ok M]
    · congr 1
      apply List.map_congr_left
      intro t _
      rw [Nat.add_assoc]
    · intro z hz'
      obtain ⟨h1, h2⟩ := hz z hz'
      refine ⟨h1, ?_⟩
      have := Nat.min_le_right chunk (n - k * chunk)
      by_cases h : k * chunk ≤ n
      · omega
      · exfalso
        have hkl := List.mem_range.1 hk'
        have h3 : (k + 1) * chunk ≤ (n + chunk - 1) / chunk * chunk := Nat.mul_le_mul_right _ hkl
        have h4 := Nat.div_mul_le_self (n + chunk - 1) chunk
        rw [Nat.add_mul] at h3
        omega

end

/-! ## The routes -/

section
variable {α σ ω : Type}

/-- What the routes rely on: the reduced part, the rest, the output, and that all cells exist. -/
structure Setup (a : List α) (off : Int) (ls lm lo : Layout) : Prop where
  ws : Walk ls
  wm : Walk lm
  tight : Tight lo lo.size
  sh : lo.shape = lm.shape
  packed : Packed 1 (pick lo.axes lm.axesComposition.2.2)
  reads : ∀ j, InRange j lm.shape → CellsAt a off ls (lm.pos j)

/-- The output cells hold the results. -/
def Out (R : Reducer α σ ω) (a : List α) (off : Int) (ls lm lo : Layout) (c : List (Option ω)) : Prop :=
  c.length = lo.size ∧ ∀ j, InRange j lm.shape → c[lo.pos j]? = some (some (R.fOut (cellSum R a off ls (lm.pos j))))

variable {R : Reducer α σ ω} {a : List α} {off : Int} {ls lm lo : Layout}

theorem Setup.lt (h : Setup a off ls lm lo) {j : List Nat} (hj : InRange j lm.shape) : lo.pos j < lo.size :=
  h.tight.lt j (by rw [h.sh]; exact hj)

theorem Setup.inj (h : Setup a off ls lm lo) {i j : List Nat} (hi : InRange i lm.shape) (hj : InRange j lm.shape)
    (e : lo.pos i = lo.pos j) : i = j := h.tight.inj i j (by rw [h.sh]; exact hi) (by rw [h.sh]; exact hj) e

/-- One write per index. -/
theorem write_each (h : Setup a off ls lm lo) {e : List (List Nat)} (he : e.Perm (all .C lm.shape))
    {st : Nat × Nat → List (Option ω) → Res (List (Option ω))}
    (hst : ∀ j, InRange j lm.shape → ∀ c, st (lm.pos j, lo.pos j) c =
      modifyAt c (lo.pos j) fun _ => some (R.fOut (cellSum R a off ls (lm.pos j))))
    {c : List (Option ω)} (hc : c.length = lo.size) :
    ∃ c', runAll st ((e.map lm.pos).zip (e.map lo.pos)) c = .ok c' ∧ Out R a off ls lm lo c' := by
  have hm : ∀ j ∈ e, InRange j lm.shape := fun j hj => mem_all.1 (he.mem_iff.1 hj)
  rw [zip_map_self, runAll_map]
  obtain ⟨c', h1, w⟩ := runAll_writes (n := lo.size)
    (fun j k v => k = lo.pos j ∧ v = some (R.fOut (cellSum R a off ls (lm.pos j)))) (xs := e)
    (st := fun j => st (lm.pos j, lo.pos j))
    (fun j hj c hc => by
      rw [hst j (hm j hj)]
      exact writes_one _ (by rw [hc]; exact h.lt (hm j hj)))
    (fun i hi j hj k v w ⟨e1, e2⟩ ⟨e3, e4⟩ => by
      have := h.inj (hm i hi) (hm j hj) (e1.symm.trans e3)
      rw [e2, e4, this]) hc
  refine ⟨c', h1, w.len.trans hc, fun j hj => w.set _ _ ⟨j, he.mem_iff.2 (mem_all.2 hj), rfl, rfl⟩⟩

variable (M : Monoidal R.init R.f R.fSum)
include M

theorem routeS_ok (h : Setup a off ls lm lo) {n : Nat} (hn : axesProduct ls ls.axesComposition.2.2 = .ok n)
    {c : List (Option ω)} (hc : c.length = lo.size) :
    ∃ c', reduceRouteS R a off 1 n ls lm lo c = .ok c' ∧ Out R a off ls lm lo c' := by
  obtain ⟨e, J, he, hm⟩ := h.wm.steps
  obtain ⟨e', J', he', hm'⟩ := h.ws.steps
  obtain ⟨a1, a2, -⟩ := hm lm (.inl h.wm) rfl
  obtain ⟨b1, b2, -⟩ := hm lo (.inr ⟨h.tight.valid, h.tight.off⟩) h.sh
  obtain ⟨-, -, c3, -, c5⟩ := hm' ls (.inl h.ws) rfl
  obtain ⟨c5, c6⟩ := c5 h.ws.packed
  have c6 := c6 n hn
  have hn0 : n ≠ 0 := by
    obtain ⟨n', h1, -, h3, -⟩ := h.ws.size_contig
    rw [hn] at h1; cases h1; exact h3
  unfold reduceRouteS
  simp only [a1, a2, b1, b2, c3, c5, ok_bind]
  refine write_each h he ?_ hc
  intro j hj c
  simp only [value_S M he' hn0 c6 (h.reads j hj), ok_bind]
  rfl

theorem routeD_ok (h : Setup a off ls lm lo) (hs : ls.axesComposition.2.2 = []) (hm0 : lm.axesComposition.2.2 = [])
    {c : List (Option ω)} (hc : c.length = lo.size) :
    ∃ c', reduceRouteD R a off 1 ls lm lo c = .ok c' ∧ Out R a off ls lm lo c' := by
  obtain ⟨e, J, he, hm⟩ := h.wm.steps
  obtain ⟨e', J', he', hm'⟩ := h.ws.steps
  obtain ⟨a1, a2, -⟩ := hm lm (.inl h.wm) rfl
  obtain ⟨b1, b2, -⟩ := hm lo (.inr ⟨h.tight.valid, h.tight.off⟩) h.sh
  obtain ⟨c1, c2, -⟩ := hm' ls (.inl h.ws) rfl
  rw [hm0, List.nil_append] at a1 b1
  rw [hs, List.nil_append] at c1
  unfold reduceRouteD
  simp only [a1, a2, b1, b2, c1, c2, ok_bind]
  refine write_each h he ?_ hc
  intro j hj c
  simp only [value_D M he' (h.reads j hj), ok_bind]
  rfl

/-- Writing the accumulators of a row. -/
theorem routeM_row (s : Setup a off ls lm lo) {e' : List (List Nat)} (he' : e'.Perm (all .C ls.shape)) {chunk : Nat}
    (hc : 0 < chunk) {n x : Nat} (hx : ∀ t < n, CellsAt a off ls (x + t)) (hn : n ≠ 0) :
    rowAcc R a chunk off x n (e'.map ls.pos) = .ok ((List.range n).map fun t => cellSum R a off ls (x + t)) := by
  rw [rowAcc_ok M hc]
  · congr 1
    apply List.map_congr_left
    intro t _
    exact cellSum_perm M he'
  · intro z hz
    obtain ⟨i, hi, rfl⟩ := List.mem_map.1 hz
    have hi := mem_all.1 (he'.mem_iff.1 hi)
    have h0 := hx 0 (by omega) i hi
    have h1 := hx (n - 1) (by omega) i hi
    push_cast at h0 h1
    refine ⟨by omega, by omega⟩

/-- The blocks of the remaining part and of the output correspond. -/
theorem row_pairs (h : Setup a off ls lm lo) {e J : List (List Nat)} (he : e.Perm (all .C lm.shape)) {n : Nat}
    {p q : List Nat → Nat} (hp : e.map lm.pos = (blockList J n).map fun r => p r.1 + r.2)
    (hq : e.map lo.pos = (blockList J n).map fun r => q r.1 + r.2) :
    (∀ j ∈ J, ∀ t < n, ∃ i, InRange i lm.shape ∧ lm.pos i = p j + t ∧ lo.pos i = q j + t) ∧
    (∀ i, InRange i lm.shape → ∃ j ∈ J, ∃ t < n, lm.pos i = p j + t ∧ lo.pos i = q j + t) := by
  have := map_pair_eq hp hq
  constructor
  · intro j hj t ht
    have hm : (p j + t, q j + t) ∈ e.map fun i => (lm.pos i, lo.pos i) := by
      rw [this]; exact List.mem_map.2 ⟨(j, t), mem_blockList hj ht, rfl⟩
    obtain ⟨i, hi, e1⟩ := List.mem_map.1 hm
    simp only [Prod.mk.injEq] at e1
    exact ⟨i, mem_all.1 (he.mem_iff.1 hi), e1.1, e1.2⟩
  · intro i hi
    have hm : (lm.pos i, lo.pos i) ∈ e.map fun i => (lm.pos i, lo.pos i) :=
      List.mem_map.2 ⟨i, he.mem_iff.2 (mem_all.2 hi), rfl⟩
    rw [this] at hm
    obtain ⟨⟨j, t⟩, hr, e1⟩ := List.mem_map.1 hm
    obtain ⟨j', hj', hr⟩ := List.mem_flatMap.1 hr
    obtain ⟨t', ht', hr⟩ := List.mem_map.1 hr
    cases hr
    simp only [Prod.mk.injEq] at e1
    exact ⟨j, hj', t, List.mem_range.1 ht', e1.1.symm, e1.2.symm⟩

theorem routeM_ok (h : Setup a off ls lm lo) {n : Nat} (hn : axesProduct lm lm.axesComposition.2.2 = .ok n)
    {c : List (Option ω)} (hc : c.length = lo.size) :
    ∃ c', reduceRouteM R a off 1 n ls lm lo c = .ok c' ∧ Out R a off ls lm lo c' := by
  obtain ⟨e, J, he, hm⟩ := h.wm.steps
  obtain ⟨e', J', he', hm'⟩ := h.ws.steps
  obtain ⟨-, -, a3, -, a5⟩ := hm lm (.inl h.wm) rfl
  obtain ⟨a5, a6⟩ := a5 h.wm.packed
  obtain ⟨-, -, b3, b4, b5⟩ := hm lo (.inr ⟨h.tight.valid, h.tight.off⟩) h.sh
  obtain ⟨b5, b6⟩ := b5 h.packed
  obtain ⟨c1, c2, -⟩ := hm' ls (.inl h.ws) rfl
  have hn0 : n ≠ 0 := by
    obtain ⟨n', h1, -, h3, -⟩ := h.wm.size_contig
    rw [hn] at h1; cases h1; exact h3
  obtain ⟨r1, r2⟩ := row_pairs M h he (a6 n hn) (b6 n hn)
  unfold reduceRouteM
  simp only [c1, c2, a3, a5, b3, b5, b4, ok_bind, packed_fContig h.packed, Bool.not_true, Bool.false_eq_true, if_false]
  generalize (⟨pick lm.axes lm.axesDiscontig, lm.offset⟩ : Layout).pos = p at *
  generalize (⟨pick lo.axes lm.axesDiscontig, lo.offset⟩ : Layout).pos = q at *
  rw [zip_map_self, runAll_map]
  obtain ⟨c', h1, w⟩ := runAll_writes (n := lo.size)
    (fun j k v => ∃ t < n, k = q j + t ∧ v = some (R.fOut (cellSum R a off ls (p j + t)))) (xs := J)
    (st := fun j c => do
      let vacc ← rowAcc R a 48 off (p j) n (e'.map ls.pos)
      runAll (fun (r : σ × Nat) c => modifyAt c (q j + r.2) fun _ => some (R.fOut (repeatAcc R 1 r.1))) vacc.zipIdx c)
    (fun j hj c hc => by
      have hrow : rowAcc R a 48 off (p j) n (e'.map ls.pos) =
          .ok ((List.range n).map fun t => cellSum R a off ls (p j + t)) :=
        routeM_row M h he' (by decide) (fun t ht => by
          obtain ⟨i, hi, e1, -⟩ := r1 j hj t ht
          rw [← e1]; exact h.reads i hi) hn0
      simp only [hrow, ok_bind]
      have hz : ((List.range n).map fun t => cellSum R a off ls (p j + t)).zipIdx =
          (List.range n).map fun t => (cellSum R a off ls (p j + t), t) := by
        apply List.ext_getElem
        · simp
        · intro k k1 k2; simp
      rw [hz, runAll_map]
      obtain ⟨c2, g1, g2⟩ := runAll_writes (n := lo.size)
        (fun t k v => k = q j + t ∧ v = some (R.fOut (cellSum R a off ls (p j + t)))) (xs := List.range n)
        (st := fun t c => modifyAt c (q j + t) fun _ => some (R.fOut (repeatAcc R 1 (cellSum R a off ls (p j + t)))))
        (fun t ht c hc => writes_one _ (by
          obtain ⟨i, hi, -, e1⟩ := r1 j hj t (List.mem_range.1 ht)
          rw [hc, ← e1]; exact h.lt hi))
        (fun t _ t' _ k v w ⟨e1, e2⟩ ⟨e3, e4⟩ => by
          have : t = t' := by omega
          rw [e2, e4, this]) hc
      exact ⟨c2, g1, g2.congr fun k v => by
        constructor
        · rintro ⟨t, ht, e⟩; exact ⟨t, List.mem_range.1 ht, e⟩
        · rintro ⟨t, ht, e⟩; exact ⟨t, List.mem_range.2 ht, e⟩⟩)
    (fun i hi j hj k v w ⟨t, ht, e1, e2⟩ ⟨t', ht', e3, e4⟩ => by
      obtain ⟨i1, k1, k2, k3⟩ := r1 i hi t ht
      obtain ⟨i2, m1, m2, m3⟩ := r1 j hj t' ht'
      have := h.inj k1 m1 (by rw [k3, m3, ← e1, e3])
      rw [e2, e4, ← k2, ← m2, this]) hc
  refine ⟨c', h1, w.len.trans hc, fun i hi => ?_⟩
  obtain ⟨j, hj, t, ht, e1, e2⟩ := r2 i hi
  exact w.set _ _ ⟨j, hj, t, ht, e2, by rw [e1]⟩

omit M in
theorem reduceSpread_one (off : Int) (lm lo : Layout) (c : List (Option ω)) : reduceSpread off 1 lm lo c = .ok c := rfl

theorem reduceRoutes_ok (h : Setup a off ls lm lo) {s0 sc m0 mc : Nat} (hs : reduceSizes ls lm = .ok (s0, sc, m0, mc)) :
    ∃ out, (if sc > 1 then reduceRouteS R a off s0 sc ls lm lo (uninit lo.size)
      else if mc > 1 then reduceRouteM R a off s0 mc ls lm lo (uninit lo.size)
      else reduceRouteD R a off s0 ls lm lo (uninit lo.size)) = .ok out ∧
      reduceSpread off m0 lm lo out = .ok out ∧ Out R a off ls lm lo out := by
  obtain ⟨n1, a1, -, -, a4⟩ := h.ws.size_contig
  obtain ⟨n2, b1, -, -, b4⟩ := h.wm.size_contig
  unfold reduceSizes at hs
  simp only [h.ws.size_broadcast, h.wm.size_broadcast, a1, b1, ok_bind, pure_eq_ok, Except.ok.injEq, Prod.mk.injEq] at hs
  obtain ⟨rfl, rfl, rfl, rfl⟩ := hs
  have hu : (uninit (γ := ω) lo.size).length = lo.size := by simp [uninit]
  split
  · obtain ⟨o, h1, h2⟩ := routeS_ok M h a1 hu
    exact ⟨o, h1, reduceSpread_one _ _ _ _, h2⟩
  · split
    · obtain ⟨o, h1, h2⟩ := routeM_ok M h b1 hu
      exact ⟨o, h1, reduceSpread_one _ _ _ _, h2⟩
    · obtain ⟨o, h1, h2⟩ := routeD_ok M h (a4 (by omega)) (b4 (by omega)) hu
      exact ⟨o, h1, reduceSpread_one _ _ _ _, h2⟩

end

/-! ## The reduction along axes -/

section
variable {α σ ω : Type}

theorem map_elim {ι : Type} (L : List ι) (g : ι → Option α) (h : ∀ i ∈ L, (g i).isSome) (d : σ) (k : α → σ) :
    L.map (fun i => (g i).elim d k) = (L.filterMap g).map k := by
  induction L with
  | nil => rfl
  | cons i L ih =>
    obtain ⟨v, hv⟩ := Option.isSome_iff_exists.1 (h i (by simp))
    rw [List.map_cons, List.filterMap_cons, hv, ih fun j hj => h j (by simp [hj])]
    rfl

/-- The parts of a plain layout are plain. -/
theorem split_walk {t : Tensor α} (h : t.WF) (hp : Plain t.layout) {axes : List Int} {ls lm : Layout}
    (hs : t.layout.dimSplitAxes axes = .ok (ls, lm)) : Walk ls ∧ Walk lm := by
  have hs' := hs
  unfold Layout.dimSplitAxes at hs
  obtain ⟨v, hv, hs⟩ := bind_ok.1 hs
  obtain ⟨g1, -, -⟩ := normalizeAxes_ok.1 hv
  obtain ⟨a', ha', hs⟩ := bind_ok.1 hs
  obtain ⟨b', hb', hs⟩ := bind_ok.1 hs
  obtain ⟨ka, ea⟩ := accepted_of_newAxes ha'
  obtain ⟨kb, eb⟩ := accepted_of_newAxes hb'
  cases hs
  have key : ∀ L : List Nat, (∀ i ∈ L, i < t.layout.ndim) → ∀ x ∈ L.map (fun i => t.layout.axes.getD i default), x ∈ t.layout.axes := by
    intro L hL x hx
    obtain ⟨i, hi, rfl⟩ := List.mem_map.1 hx
    have hl : i < t.layout.axes.length := hL i hi
    rw [List.getD_eq_getElem?_getD, List.getElem?_eq_getElem hl]
    exact List.getElem_mem hl
  have plain : ∀ {m : Layout}, (∀ x ∈ m.axes, x ∈ t.layout.axes) → Plain m := by
    intro m hm
    refine ⟨fun h0 => ?_, fun x hx => hp.moves x (hm x hx)⟩
    obtain ⟨x, hx, e⟩ := List.mem_map.1 h0
    exact hp.pos (by rw [← e]; exact List.mem_map_of_mem (hm x hx))
  have hv' : ∀ i ∈ v, i < t.layout.ndim := by
    obtain ⟨g1, -, rfl⟩ := normalizeAxes_ok.1 hv
    intro i hi
    obtain ⟨b, hb, rfl⟩ := List.mem_map.1 (by simpa using hi)
    exact normAxis_lt (g1 b hb)
  constructor
  · refine ⟨valid_iff.2 ka, by rw [ea]; exact h.1, plain ?_⟩
    rw [ea]
    exact key v hv'
  · refine ⟨valid_iff.2 kb, by rw [eb]; exact h.1, plain ?_⟩
    rw [eb]
    refine key _ fun i hi => ?_
    exact List.mem_range.1 (List.mem_filter.1 hi).1

/-- The setup of the routes, and the value of the cells. -/
theorem split_setup (dflt : Order) {t : Tensor α} (h : t.WF) (hp : Plain t.layout) {axes : List Int} {ls lm : Layout}
    (hs : t.layout.dimSplitAxes axes = .ok (ls, lm)) {R : Reducer α σ ω} (M : Monoidal R.init R.f R.fSum) :
    ∃ lo, lm.forArrayCopy dflt .K = .ok lo ∧ Setup t.data t.layout.offset ls lm lo ∧ ∀ j, InRange j lm.shape →
      cellSum R t.data t.layout.offset ls (lm.pos j) =
        (t.arr.slice (axes.map (normAxis t.arr.shape.length)) j).elements.foldl R.f R.init := by
  obtain ⟨w1, w2⟩ := split_walk h hp hs
  obtain ⟨s1, s2, s3, s4, s5, s6⟩ := split_facts h hs
  obtain ⟨lo, o1, o2, o3, o4⟩ := forArrayCopy_spec dflt w2.valid .K (by simp)
  have key : ∀ j, InRange j lm.shape → ∀ i, InRange i ls.shape →
      0 ≤ (lm.pos j : Int) + ls.pos i - t.layout.offset ∧ ((lm.pos j : Int) + ls.pos i - t.layout.offset).toNat =
        t.layout.pos (mergeIndex t.arr.shape.length (axes.map (normAxis t.arr.shape.length)) i j) ∧
      InRange (mergeIndex t.arr.shape.length (axes.map (normAxis t.arr.shape.length)) i j) t.layout.shape := by
    intro j hj i hi
    obtain ⟨k1, k2⟩ := s6 j hj
    obtain ⟨k3, k4⟩ := k2 i hi
    have k5 := w1.fit.nonneg i hi
    have k6 := h.fit.nonneg _ k3
    have e1 : (lm.pos j : Int) = lm.addr j := Int.toNat_of_nonneg k1
    have e2 : (ls.pos i : Int) = ls.addr i := Int.toNat_of_nonneg k5
    rw [e1, e2]
    refine ⟨by omega, ?_, k3⟩
    unfold Layout.pos
    congr 1
    omega
  refine ⟨lo, o1, ⟨w1, w2, o3.tight fun hz => o4 (by rwa [← o2]), o2, w2.packed_out dflt o1, ?_⟩, ?_⟩
  · intro j hj i hi
    obtain ⟨k1, k2, k3⟩ := key j hj i hi
    refine ⟨k1, ?_⟩
    rw [k2]
    exact h.covers _ k3
  · intro j hj
    rw [foldl_init M]
    unfold cellSum
    congr 1
    have : (all .C ls.shape).map (fun i => cellAt R t.data t.layout.offset (lm.pos j) (ls.pos i)) =
        (all .C ls.shape).map fun i => (t.arr.elem (mergeIndex t.arr.shape.length
          (axes.map (normAxis t.arr.shape.length)) i j)).elim R.init (R.f R.init) := by
      apply List.map_congr_left
      intro i hi
      obtain ⟨k1, k2, k3⟩ := key j hj i (mem_all.1 hi)
      unfold cellAt cellVal
      rw [k2, elem_pos h.fit k3]
    rw [this, map_elim]
    · rw [s4]; rfl
    · intro i hi
      obtain ⟨k1, k2, k3⟩ := key j hj i (mem_all.1 hi)
      rw [elem_pos h.fit k3]
      simpa using h.covers _ k3

theorem reduceAxes_ok (dflt : Order) {t : Tensor α} (h : t.WF) (hp : Plain t.layout) {axes : List Int} {ls lm : Layout}
    (hs : t.layout.dimSplitAxes axes = .ok (ls, lm)) {R : Reducer α σ ω} (M : Monoidal R.init R.f R.fSum) :
    ∃ d lo, reduceAxes dflt R t.data t.layout axes = .ok (d, lo) ∧ lo.shape = lm.shape ∧ (⟨d, lo⟩ : Tensor ω).WF ∧
      ∀ j, InRange j lm.shape → (⟨d, lo⟩ : Tensor ω).arr.elem j =
        some (R.fOut ((t.arr.slice (axes.map (normAxis t.arr.shape.length)) j).elements.foldl R.f R.init)) := by
  obtain ⟨lo, o1, st, o3⟩ := split_setup dflt h hp hs M
  obtain ⟨n1, a1, -⟩ := st.ws.size_contig
  obtain ⟨n2, b1, -⟩ := st.wm.size_contig
  have hsz : reduceSizes ls lm = .ok (1, n1, 1, n2) := by
    unfold reduceSizes
    simp only [st.ws.size_broadcast, st.wm.size_broadcast, a1, b1, ok_bind]
    rfl
  obtain ⟨out, r1, r2, r3⟩ := reduceRoutes_ok M st hsz
  obtain ⟨d, f1, f2, f3, f4, f5⟩ := fresh_finish st.tight r3.1
    (fun j v => v = R.fOut ((t.arr.slice (axes.map (normAxis t.arr.shape.length)) j).elements.foldl R.f R.init))
    (fun j hj => by
      rw [st.sh] at hj
      exact ⟨_, rfl, by rw [r3.2 j hj, o3 j hj]⟩)
  refine ⟨d, lo, ?_, st.sh, f4, fun j hj => ?_⟩
  · unfold reduceAxes
    simp only [hs, o1, hsz, ok_bind, r1, r2, f1]
    rfl
  · obtain ⟨v, e1, e2⟩ := f5 j (by rw [st.sh]; exact hj)
    rw [e2, e1]

end
end Rstsr
