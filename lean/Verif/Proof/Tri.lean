import Verif.Model.Tri
import Verif.Thm.Matmul
import Verif.Thm.ReduceAxes
import Verif.Thm.Copy
import Verif.Proof.Writes
import Verif.Proof.Apart
/-!
# Packed triangles: proofs
-/
namespace Rstsr
open Spec

section
variable {α : Type}

/-! ## Numbering the pairs of a triangle -/

theorem zipIdx_rows (s c F : Nat → Nat) (m : Nat) (h0 : F 0 = 0) (hF : ∀ i < m, F (i + 1) = F i + c i) :
    (((List.range m).flatMap fun i => (List.range' (s i) (c i)).map fun j => (i, j)).zipIdx =
      ((List.range m).flatMap fun i => (List.range' (s i) (c i)).map fun j => (i, j)).map
        fun p => (p, F p.1 + (p.2 - s p.1))) ∧
    ((List.range m).flatMap fun i => (List.range' (s i) (c i)).map fun j => (i, j)).length = F m := by
  induction m with
  | zero => simp [h0]
  | succ m ih =>
    obtain ⟨h1, h2⟩ := ih fun i hi => hF i (by omega)
    rw [List.range_succ, List.flatMap_append]
    constructor
    · rw [List.zipIdx_append, h1, h2, List.map_append]
      congr 1
      simp only [List.flatMap_cons, List.flatMap_nil, List.append_nil]
      apply List.ext_getElem
      · simp
      · intro k k1 k2
        simp
    · rw [List.length_append, h2, hF m (by omega)]
      simp

theorem triNum (k : Nat) : (k + 1) * (k + 1 + 1) / 2 = k * (k + 1) / 2 + (k + 1) := by
  have : (k + 1) * (k + 1 + 1) = k * (k + 1) + 2 * (k + 1) := by ring
  omega

theorem triNumU {n i : Nat} (h : i < n) : (i + 1) * (2 * n + 1 - (i + 1)) / 2 = i * (2 * n + 1 - i) / 2 + (n - i) := by
  obtain ⟨d, rfl⟩ : ∃ d, n = i + d := ⟨n - i, by omega⟩
  have e1 : 2 * (i + d) + 1 - (i + 1) = i + 2 * d := by omega
  have e2 : 2 * (i + d) + 1 - i = i + 2 * d + 1 := by omega
  rw [e1, e2]
  have : (i + 1) * (i + 2 * d) = i * (i + 2 * d + 1) + 2 * d := by ring
  omega

theorem loopL_eq (n : Nat) : loopL n = (List.range n).flatMap fun i => (List.range' 0 (i + 1)).map fun j => (i, j) := by
  simp only [loopL, List.range_eq_range']

theorem zipIdx_pairs (uplo : UpLo) (n : Nat) :
    (triPairs uplo n).zipIdx = (triPairs uplo n).map fun p => (p, triIndex .C uplo n p.1 p.2) := by
  cases uplo
  · exact (zipIdx_rows (fun i => i) (fun i => n - i) (fun i => i * (2 * n + 1 - i) / 2) n (by simp) fun i hi => triNumU hi).1
  · show (loopL n).zipIdx = (loopL n).map _
    rw [loopL_eq]
    exact (zipIdx_rows (fun _ => 0) (fun i => i + 1) (fun i => i * (i + 1) / 2) n (by simp) fun i _ => triNum i).1

theorem length_pairs (uplo : UpLo) (n : Nat) : (triPairs uplo n).length = triSize n := by
  cases uplo
  · have := (zipIdx_rows (fun i => i) (fun i => n - i) (fun i => i * (2 * n + 1 - i) / 2) n (by simp) fun i hi => triNumU hi).2
    refine this.trans ?_
    show n * (2 * n + 1 - n) / 2 = n * (n + 1) / 2
    rw [show 2 * n + 1 - n = n + 1 by omega]
  · show (loopL n).length = _
    rw [loopL_eq]
    exact (zipIdx_rows (fun _ => 0) (fun i => i + 1) (fun i => i * (i + 1) / 2) n (by simp) fun i _ => triNum i).2

theorem mem_pairs {uplo : UpLo} {n i j : Nat} : (i, j) ∈ triPairs uplo n ↔ i < n ∧ j < n ∧ InTri uplo i j := by
  cases uplo
  · simp only [triPairs, loopU, List.mem_flatMap, List.mem_range, List.mem_map, List.mem_range'_1, Prod.mk.injEq, InTri]
    constructor
    · rintro ⟨a, ha, b, hb, rfl, rfl⟩; omega
    · rintro ⟨h1, h2, h3⟩; exact ⟨i, h1, j, by omega, rfl, rfl⟩
  · simp only [triPairs, loopL, List.mem_flatMap, List.mem_range, List.mem_map, Prod.mk.injEq, InTri]
    constructor
    · rintro ⟨a, ha, b, hb, rfl, rfl⟩; omega
    · rintro ⟨h1, h2, h3⟩; exact ⟨i, h1, j, by omega, rfl, rfl⟩

theorem idx_map (uplo : UpLo) (n : Nat) :
    (triPairs uplo n).map (fun p => triIndex .C uplo n p.1 p.2) = List.range (triSize n) := by
  have := congrArg (List.map Prod.snd) (zipIdx_pairs uplo n)
  rw [List.map_map] at this
  rw [← length_pairs uplo n]
  refine this.symm.trans ?_
  rw [List.range_eq_range']
  exact List.zipIdx_map_snd 0 _

theorem triIndex_lt {uplo : UpLo} {n i j : Nat} (hi : i < n) (hj : j < n) (h : InTri uplo i j) :
    triIndex .C uplo n i j < triSize n := by
  rw [← List.mem_range, ← idx_map uplo n]
  exact List.mem_map.2 ⟨(i, j), mem_pairs.2 ⟨hi, hj, h⟩, rfl⟩

theorem triIndex_surj (uplo : UpLo) {n k : Nat} (h : k < triSize n) :
    ∃ i j, i < n ∧ j < n ∧ InTri uplo i j ∧ triIndex .C uplo n i j = k := by
  rw [← List.mem_range, ← idx_map uplo n] at h
  obtain ⟨⟨i, j⟩, h1, h2⟩ := List.mem_map.1 h
  obtain ⟨h1, h3, h4⟩ := mem_pairs.1 h1
  exact ⟨i, j, h1, h3, h4, h2⟩

theorem triIndex_inj {uplo : UpLo} {n i j i' j' : Nat} (hi : i < n) (hj : j < n) (h : InTri uplo i j)
    (hi' : i' < n) (hj' : j' < n) (h' : InTri uplo i' j') (e : triIndex .C uplo n i j = triIndex .C uplo n i' j') :
    i = i' ∧ j = j' := by
  have hn : ((triPairs uplo n).map fun p => triIndex .C uplo n p.1 p.2).Nodup := by
    rw [idx_map]; exact List.nodup_range
  have := List.inj_on_of_nodup_map hn (mem_pairs.2 ⟨hi, hj, h⟩) (mem_pairs.2 ⟨hi', hj', h'⟩) e
  exact Prod.mk.inj this

theorem nodup_pairs (uplo : UpLo) (n : Nat) : (triPairs uplo n).Nodup := by
  have hn : ((triPairs uplo n).map fun p => triIndex .C uplo n p.1 p.2).Nodup := by
    rw [idx_map]; exact List.nodup_range
  exact hn.of_map

/-! ## The integer square root -/

theorem isqrt_spec (m : Nat) : isqrt m * isqrt m ≤ m ∧ m < (isqrt m + 1) * (isqrt m + 1) := by
  induction m with
  | zero => simp [isqrt]
  | succ m ih =>
    rw [isqrt]
    split
    · rename_i h
      refine ⟨h, ?_⟩
      have : (isqrt m + 1 + 1) * (isqrt m + 1 + 1) = (isqrt m + 1) * (isqrt m + 1) + 2 * isqrt m + 3 := by ring
      omega
    · omega

theorem isqrt_tri (n : Nat) : isqrt (2 * triSize n) = n := by
  have he : 2 * triSize n = n * (n + 1) := Nat.mul_div_cancel' (Nat.even_mul_succ_self n).two_dvd
  obtain ⟨h1, h2⟩ := isqrt_spec (2 * triSize n)
  rw [he] at h1 h2 ⊢
  generalize isqrt (n * (n + 1)) = r at *
  have a1 : r ≤ n := by
    by_contra hc
    have := Nat.mul_self_le_mul_self (show n + 1 ≤ r by omega)
    have : (n + 1) * (n + 1) = n * (n + 1) + n + 1 := by ring
    omega
  have a2 : n ≤ r := by
    by_contra hc
    have := Nat.mul_self_le_mul_self (show r + 1 ≤ n by omega)
    have : n * (n + 1) = n * n + n := by ring
    omega
  omega

/-! ## Writes -/

/-- The updates of a list of writes. -/
def ups (ws : List (Nat × α)) : List (Nat × (Option α → Option α)) := ws.map fun w => (w.1, fun _ => some w.2)

theorem writeAll_eq (ws : List (Nat × α)) (a : List (Option α)) : writeAll ws a = runU (ups ws) a := by
  unfold writeAll ups runU
  rw [runAll_map]

theorem updates_writeProc (ws : List (Nat × α)) : updates (writeProc ws) = ups ws := by
  induction ws with
  | nil => rfl
  | cons w ws ih => simp only [writeProc, updates, ih]; rfl

theorem apart_writeProc (ws : List (Nat × α)) : Apart (writeProc ws) := by
  induction ws with
  | nil => trivial
  | cons w ws ih => exact ⟨trivial, ih⟩


/-- What remains of a buffer after all matrices were handled. -/
structure TriJob (la : Layout) (n : Nat) (one : Nat → Nat → Res (List (Nat × α))) (ra rb : Layout) (e : List (List Nat))
    (ws : List Nat → List (Nat × α)) (W : List Nat → α → Prop) : Prop where
  nodup : e.Nodup
  ne : e ≠ []
  items : ∃ fa fb : List Nat → Nat, colItems ra = .ok (e.map fa) ∧ colItems rb = .ok (e.map fb) ∧
    ∀ t ∈ e, one (fa t) (fb t) = .ok (ws t)
  lt : ∀ t ∈ e, ∀ w ∈ ws t, w.1 < n
  apart : ∀ t ∈ e, ∀ t' ∈ e, t ≠ t' → ∀ w ∈ ws t, ∀ w' ∈ ws t', w.1 ≠ w'.1
  value : ∀ idx, InRange idx la.shape → ∃ t ∈ e, ∃ v, effect (la.pos idx) (ups (ws t)) none = some v ∧ W idx v ∧
    ∃ w ∈ ws t, w.1 = la.pos idx

theorem tri_deliver (par : Option Scheduler) (hp : Device par) {la : Layout} {n : Nat} (h : Tight la n)
    {plan : Nat → Res ((Nat → Nat → Res (List (Nat × α))) × Layout × Layout)}
    {one : Nat → Nat → Res (List (Nat × α))} {ra rb : Layout} (hplan : plan n = .ok (one, ra, rb)) {e : List (List Nat)}
    {ws : List Nat → List (Nat × α)} {W : List Nat → α → Prop} (J : TriJob la n one ra rb e ws W) :
    ∃ r, Delivers (triFinish par la plan) r ∧ r.WF ∧ r.layout = la ∧
      ∀ idx, InRange idx la.shape → ∃ v, W idx v ∧ r.arr.elem idx = some v := by
  obtain ⟨mn, hb⟩ := h.bounds
  obtain ⟨fa, fb, ia, ib, hone⟩ := J.items
  have hU : ∀ u ∈ e.flatMap fun t => ups (ws t), u.1 < (uninit (n : Int) : List (Option α)).length := by
    intro u hu
    obtain ⟨t, ht, hu⟩ := List.mem_flatMap.1 hu
    obtain ⟨w, hw, rfl⟩ := List.mem_map.1 hu
    simpa [uninit] using J.lt t ht w hw
  obtain ⟨c, c1, c2, c3⟩ := runU_effect hU
  have clen : c.length = n := by simpa [uninit] using c2
  obtain ⟨d, d1, d2, d3, d4, d5⟩ := fresh_finish h clen W (by
    intro idx hi
    obtain ⟨t, ht, v, hv, hW, -⟩ := J.value idx hi
    obtain ⟨_, _, _, _, _, w, hw, hwe⟩ := J.value idx hi
    refine ⟨v, hW, ?_⟩
    rw [c3]
    have hlt := h.lt idx hi
    have : (uninit (n : Int) : List (Option α))[la.pos idx]? = some none := by
      simp [uninit, List.getElem?_replicate, hlt]
    rw [this, Option.map_some, effect_at J.nodup ht, hv]
    intro t' ht' hne u hu
    obtain ⟨w', hw', rfl⟩ := List.mem_map.1 hu
    obtain ⟨t₁, ht₁, v₁, hv₁, -, w₁, hw₁, hwe₁⟩ := J.value idx hi
    by_cases hc : t₁ = t
    · subst hc
      rw [← hwe₁]
      exact J.apart t' ht' t₁ ht hne w' hw' w₁ hw₁
    · exfalso
      by_cases hx : ∃ w ∈ ws t, w.1 = la.pos idx
      · obtain ⟨w₂, hw₂, e₂⟩ := hx
        exact J.apart t ht t₁ ht₁ (fun h => hc h.symm) w₂ hw₂ w₁ hw₁ (e₂.trans hwe₁.symm)
      · rw [effect_none] at hv
        · cases hv
        · intro u hu
          obtain ⟨w₂, hw₂, rfl⟩ := List.mem_map.1 hu
          exact fun h => hx ⟨w₂, hw₂, h⟩)
  refine ⟨⟨d, la⟩, ?_, d4, rfl, d5⟩
  have hz : (e.map fa).zip (e.map fb) = e.map fun t => (fa t, fb t) := zip_map_self _ _ _
  unfold triFinish
  simp only [hb, ok_bind, Int.toNat_natCast, hplan]
  cases par with
  | none =>
    left
    have : triSerial one ra rb (uninit (n : Int)) = .ok c := by
      unfold triSerial
      simp only [ia, ib, ok_bind, hz]
      rw [runAll_map, ← c1, runU_flatMap]
      refine runAll_congr (fun t ht a => ?_) _
      simp only [hone t ht, ok_bind, writeAll_eq]
    simp only [this, ok_bind, d1, d3]
    rfl
  | some s =>
    right
    have hne : e.map fa ≠ [] := by simpa using J.ne
    have hne' : e.map fb ≠ [] := by simpa using J.ne
    obtain ⟨x, x1, x2, x3, x4, x5, x6⟩ := iter_of_items ia hne
    obtain ⟨y, y1, y2, y3, y4, y5, y6⟩ := iter_of_items ib hne'
    simp only [List.length_map] at x6 y6
    have hzz : x.items.zip y.items = e.map fun t => (fa t, fb t) := by rw [x5, y5, hz]
    let u := fun (q : Nat × Nat) => match one q.1 q.2 with
      | .ok w => ups w
      | .error _ => []
    have hu : ∀ t ∈ e, u (fa t, fb t) = ups (ws t) := by
      intro t ht
      show (match one (fa t) (fb t) with | .ok w => ups w | .error _ => []) = _
      rw [hone t ht]
    obtain ⟨p, p1, p2⟩ := parIter2_built (g := fun _ p => writeProc <$> one p.1 p.2) (m := 0)
      (R := fun q p => updates p = u q ∧ Apart p) (s x.len 0) x2 x3 x4 y2 y3 y4 (by omega)
      (hp s rfl _ _) (by
        intro pl q hq
        rw [hzz] at hq
        obtain ⟨t, ht, rfl⟩ := List.mem_map.1 hq
        exact ⟨writeProc (ws t), by simp only [hone t ht]; rfl, by rw [hu t ht, updates_writeProc], apart_writeProc _⟩)
    rw [hzz] at p2
    have hups : updates p = e.flatMap fun t => ups (ws t) := by
      rw [p2.updates fun q p h => h.1, List.flatMap_map]
      exact List.flatMap_congr hu
    have hap : Apart p := by
      refine p2.apart (fun q p h => h) ?_
      rw [List.pairwise_map]
      refine J.nodup.imp_of_mem fun {t t'} ht ht' hne => ?_
      rw [hu t ht, hu t' ht']
      intro k h1 h2
      simp only [ups, List.map_map, List.mem_map, Function.comp] at h1 h2
      obtain ⟨w, hw, rfl⟩ := h1
      obtain ⟨w', hw', e'⟩ := h2
      exact J.apart t ht t' ht' hne w hw w' hw' e'.symm
    refine ⟨p, n, fun c => do
      let c ← assumeInit c
      Tensor.newF c la, c, ?_, ?_, raceFree_of_apart hap, ?_⟩
    · unfold triPar
      simp only [x1, y1, ok_bind]
      rw [show min x.len y.len = x.len by omega, p1]
      rfl
    · refine computes_of_apart hap ?_ ?_ ?_
      · intro k hk
        rw [cells, hups] at hk
        obtain ⟨w, hw, rfl⟩ := List.mem_map.1 hk
        exact hU w hw
      · exact c2
      · intro k
        rw [hups]; exact c3 k
    · simp only [d1, ok_bind, d3]


/-! ## The kernels for one matrix -/

/-- A vector of packed elements and a square matrix, by positions. -/
structure TriPos (lenV lenM : Nat) (lv lm : Layout) (n ov om : Nat) (V : Nat → Nat) (M : Nat → Nat → Nat) : Prop where
  pos : 0 < n
  sv : lv.shape = [triSize n]
  sm : lm.shape = [n, n]
  vec : ∀ k < triSize n, (lv.setOffset ov).addr [k] = V k ∧ V k < lenV
  mat : ∀ i < n, ∀ j < n, (lm.setOffset om).addr [i, j] = M i j ∧ M i j < lenM

theorem triSize_pos {n : Nat} (h : 0 < n) : 0 < triSize n := by
  obtain ⟨k, rfl⟩ : ∃ k, n = k + 1 := ⟨n - 1, by omega⟩
  rw [triSize, triNum]; omega

theorem addr_setOffset (l : Layout) (o : Nat) (idx : List Nat) : (l.setOffset o).addr idx = l.addr idx - l.offset + o := by
  rw [addr_eq, addr_eq]
  show (o : Int) + dot idx l.axes = _
  omega

theorem TriPos.contigV {lenV lenM : Nat} {lv lm : Layout} {n ov om : Nat} {V : Nat → Nat} {M : Nat → Nat → Nat}
    (h : TriPos lenV lenM lv lm n ov om V M) (hc : lv.cContig = true) {k : Nat} (hk : k < triSize n) : V k = ov + k := by
  have hz : 0 ∉ lv.shape := by rw [h.sv]; have := triSize_pos h.pos; simp; omega
  have := contig_rank (o := .C) hz hc [k] (by rw [h.sv]; simp [inRange_cons, InRange, hk])
  have e := (h.vec k hk).1
  rw [addr_setOffset, this, h.sv] at e
  simp [rank, rankC] at e
  omega

theorem TriPos.contigM {lenV lenM : Nat} {lv lm : Layout} {n ov om : Nat} {V : Nat → Nat} {M : Nat → Nat → Nat}
    (h : TriPos lenV lenM lv lm n ov om V M) (hc : lm.cContig = true) {i j : Nat} (hi : i < n) (hj : j < n) :
    M i j = om + (i * n + j) := by
  have hz : 0 ∉ lm.shape := by rw [h.sm]; have := h.pos; simp; omega
  have := contig_rank (o := .C) hz hc [i, j] (by rw [h.sm]; simp [inRange_cons, InRange, hi, hj])
  have e := (h.mat i hi j hj).1
  rw [addr_setOffset, this, h.sm] at e
  simp [rank, rankC] at e
  rw [← Nat.cast_mul] at e
  omega

theorem TriPos.getV {lenV lenM : Nat} {lv lm : Layout} {n ov om : Nat} {V : Nat → Nat} {M : Nat → Nat → Nat}
    (h : TriPos lenV lenM lv lm n ov om V M) {k : Nat} (hk : k < triSize n) :
    (do toUsize (← (lv.setOffset ov).indexUncheck [k]) : Res Nat) = .ok (V k) := by
  rw [indexUncheck_eq (by have := ndim_eq h.sv; show 1 = lv.ndim; rw [this]; rfl)]
  simp only [ok_bind, (h.vec k hk).1, toUsize]
  rw [if_neg (by omega)]
  rfl

theorem TriPos.getM {lenV lenM : Nat} {lv lm : Layout} {n ov om : Nat} {V : Nat → Nat} {M : Nat → Nat → Nat}
    (h : TriPos lenV lenM lv lm n ov om V M) {i j : Nat} (hi : i < n) (hj : j < n) :
    (do toUsize (← (lm.setOffset om).indexUncheck [i, j]) : Res Nat) = .ok (M i j) := by
  rw [indexUncheck_eq (by have := ndim_eq h.sm; show 2 = lm.ndim; rw [this]; rfl)]
  simp only [ok_bind, (h.mat i hi j hj).1, toUsize]
  rw [if_neg (by omega)]
  rfl

theorem packGeneral_ok (uplo : UpLo) {lenA : Nat} {b : List α} {lv lm : Layout} {n ov om : Nat} {V : Nat → Nat}
    {M : Nat → Nat → Nat} (h : TriPos lenA b.length lv lm n ov om V M) {X : Nat → Nat → α}
    (hX : ∀ i < n, ∀ j < n, b[M i j]? = some (X i j)) :
    packGeneral (triPairs uplo n) (lv.setOffset ov) b (lm.setOffset om) =
      .ok ((triPairs uplo n).map fun p => (V (triIndex .C uplo n p.1 p.2), X p.1 p.2)) := by
  unfold packGeneral
  rw [zipIdx_pairs, List.mapM_map]
  apply mapM_eq_map
  rintro ⟨i, j⟩ hp
  obtain ⟨hi, hj, ht⟩ := mem_pairs.1 hp
  have g1 := h.getM hi hj
  have g2 := h.getV (triIndex_lt hi hj ht)
  obtain ⟨x, x1, x2⟩ := bind_ok.1 g1
  obtain ⟨y, y1, y2⟩ := bind_ok.1 g2
  simp only [Function.comp, x1, y1, ok_bind, x2, y2, readAt_ok.2 (hX i hi j hj)]
  rfl

theorem packTriuC_ok {lenA : Nat} {b : List α} {lv lm : Layout} {n ov om : Nat} {V : Nat → Nat}
    {M : Nat → Nat → Nat} (h : TriPos lenA b.length lv lm n ov om V M) {X : Nat → Nat → α}
    (hX : ∀ i < n, ∀ j < n, b[M i j]? = some (X i j)) (c1 : lv.cContig = true) (c2 : lm.cContig = true) :
    packTriuC n ov b om =
      .ok ((triPairs .U n).map fun p => (V (triIndex .C .U n p.1 p.2), X p.1 p.2)) := by
  unfold packTriuC
  rw [show loopU n = triPairs .U n from rfl, zipIdx_pairs, List.mapM_map]
  apply mapM_eq_map
  rintro ⟨i, j⟩ hp
  obtain ⟨hi, hj, ht⟩ := mem_pairs.1 hp
  simp only [Function.comp]
  rw [← h.contigM c2 hi hj, ← h.contigV c1 (triIndex_lt hi hj ht), readAt_ok.2 (hX i hi j hj)]
  rfl

theorem packTrilC_ok {lenA : Nat} {b : List α} {n ov om : Nat} {X : Nat → Nat → α} (hv : ov + triSize n ≤ lenA)
    (hm : om + n * n ≤ b.length) (hX : ∀ i < n, ∀ j < n, b[om + (i * n + j)]? = some (X i j)) (c r : Nat) (hr : r + c = n) :
    packTrilC lenA b n (List.range' r c) (ov + r * (r + 1) / 2) (om + r * n) =
      .ok ((List.range' r c).flatMap fun i => (List.range (i + 1)).map fun j => (ov + (i * (i + 1) / 2 + j), X i j)) := by
  induction c generalizing r with
  | zero => rfl
  | succ c ih =>
    rw [List.range'_succ, packTrilC]
    have hs : r * (r + 1) / 2 + (r + 1) ≤ triSize n := by
      have : (r + 1) * (r + 1 + 1) / 2 ≤ n * (n + 1) / 2 :=
        Nat.div_le_div_right (Nat.mul_le_mul (by omega) (by omega))
      rw [triNum] at this
      exact this
    have hn : r * n + n ≤ n * n := by
      have := Nat.mul_le_mul_right n (show r + 1 ≤ n by omega)
      rwa [Nat.succ_mul] at this
    rw [if_neg (by omega), show min (r + 1) n = r + 1 by omega]
    have e1 : (List.range (r + 1)).mapM (fun (j : Nat) => (do pure (ov + r * (r + 1) / 2 + j, ← readAt b (om + r * n + j)) : Res (Nat × α))) =
        .ok ((List.range (r + 1)).map fun j => (ov + (r * (r + 1) / 2 + j), X r j)) := by
      apply mapM_eq_map
      intro j hj
      rw [show om + r * n + j = om + (r * n + j) by omega, readAt_ok.2 (hX r (by omega) j (by have := List.mem_range.1 hj; omega))]
      simp only [ok_bind, Nat.add_assoc]
      rfl
    have e2 := ih (r + 1) (by omega)
    rw [triNum, Nat.succ_mul, ← Nat.add_assoc, ← Nat.add_assoc, ← Nat.add_assoc] at e2
    rw [e1]
    simp only [ok_bind]
    rw [show ov + r * (r + 1) / 2 + (r + 1) = ov + r * (r + 1) / 2 + r + 1 by omega] at *
    rw [e2]
    rfl

theorem packOne_ok (uplo : UpLo) {lenA : Nat} {b : List α} {lv lm : Layout} {n ov om : Nat} {V : Nat → Nat}
    {M : Nat → Nat → Nat} (h : TriPos lenA b.length lv lm n ov om V M) {X : Nat → Nat → α}
    (hX : ∀ i < n, ∀ j < n, b[M i j]? = some (X i j)) :
    packOne uplo (lv.cContig && lm.cContig) lenA lv b lm n ov om =
      .ok ((triPairs uplo n).map fun p => (V (triIndex .C uplo n p.1 p.2), X p.1 p.2)) := by
  cases hc : lv.cContig && lm.cContig with
  | false =>
    cases uplo
    · exact packGeneral_ok .U h hX
    · exact packGeneral_ok .L h hX
  | true =>
    obtain ⟨c1, c2⟩ := Bool.and_eq_true_iff.1 hc
    have hs := triSize_pos h.pos
    have b1 : ov + triSize n ≤ lenA := by
      have := (h.vec (triSize n - 1) (by omega)).2
      rw [h.contigV c1 (by omega)] at this
      omega
    have b2 : om + n * n ≤ b.length := by
      have hp := h.pos
      have := (h.mat (n - 1) (by omega) (n - 1) (by omega)).2
      rw [h.contigM c2 (by omega) (by omega), Nat.sub_mul] at this
      have := Nat.mul_le_mul_right n (show 1 ≤ n by omega)
      omega
    cases uplo with
    | U =>
      show (if _ then _ else _) = _
      rw [if_neg (by omega)]
      exact packTriuC_ok h hX c1 c2
    | L =>
      show (if _ then _ else _) = _
      rw [if_neg (by omega)]
      have := packTrilC_ok (b := b) (n := n) (X := X) b1 b2 (fun i hi j hj => by
        rw [← h.contigM c2 hi hj]; exact hX i hi j hj) n 0 (by omega)
      rw [List.range_eq_range']
      simp only [Nat.zero_mul, Nat.zero_div, Nat.add_zero] at this
      rw [this]
      congr 1
      show _ = (loopL n).map _
      rw [loopL, List.map_flatMap, ← List.range_eq_range']
      refine List.flatMap_congr fun i hi => ?_
      rw [List.map_map]
      apply List.map_congr_left
      intro j hj
      have hi := List.mem_range.1 hi
      have hj := List.mem_range.1 hj
      simp only [Function.comp]
      rw [h.contigV c1 (triIndex_lt (uplo := .L) hi (by omega) (show j ≤ i by omega))]
      rfl


/-- The writes of an unpacking kernel for one pair. -/
def pairW (O : TriOps α) (symm : Symm) (M : Nat → Nat → Nat) (i j : Nat) (v : α) : List (Nat × α) :=
  match symm with
  | .Sy => [(M i j, v), (M j i, v)]
  | .He => [(M i j, v), (M j i, O.conj v)]
  | .Ay => if i = j then [(M i i, O.zero)] else [(M i j, v), (M j i, O.neg v)]
  | .Ah => if i = j then [(M i i, O.zero)] else [(M i j, v), (M j i, O.neg (O.conj v))]
  | .N => [(M i j, v)]

theorem unpackPair_ok (O : TriOps α) (symm : Symm) {pos : Nat → Nat → Res Nat} {get : Nat → Res α} {M : Nat → Nat → Nat}
    {i j k : Nat} {v : α} (h1 : pos i j = .ok (M i j)) (h2 : pos j i = .ok (M j i)) (h3 : pos i i = .ok (M i i))
    (hv : get k = .ok v) : unpackPair O symm pos get i j k = .ok (pairW O symm M i j v) := by
  unfold unpackPair pairW
  cases symm <;> simp only [h1, h2, h3, hv, ok_bind] <;> first | rfl | (split <;> rfl)

theorem unpackOne_ok (O : TriOps α) (uplo : UpLo) (symm : Symm) {lenA : Nat} {b : List α} {lv lm : Layout} {n ov om : Nat}
    {V : Nat → Nat} {M : Nat → Nat → Nat} (h : TriPos b.length lenA lv lm n ov om V M) {X : Nat → α}
    (hX : ∀ k < triSize n, b[V k]? = some (X k)) :
    unpackOne O uplo symm (lm.cContig && lv.cContig) lenA lm b lv n om ov =
      .ok ((triPairs uplo n).flatMap fun p => pairW O symm M p.1 p.2 (X (triIndex .C uplo n p.1 p.2))) := by
  unfold unpackOne
  simp only [zipIdx_pairs, List.mapM_map]
  have key : ∀ {pos : Nat → Nat → Res Nat} {get : Nat → Res α}, (∀ i < n, ∀ j < n, pos i j = .ok (M i j)) →
      (∀ k < triSize n, get k = .ok (X k)) →
      List.flatten <$> (triPairs uplo n).mapM ((fun (p : (Nat × Nat) × Nat) => unpackPair O symm pos get p.1.1 p.1.2 p.2) ∘
        fun p => (p, triIndex .C uplo n p.1 p.2)) =
      (.ok ((triPairs uplo n).flatMap fun p => pairW O symm M p.1 p.2 (X (triIndex .C uplo n p.1 p.2))) : Res _) := by
    intro pos get hp hg
    rw [mapM_eq_map (g := fun p => pairW O symm M p.1 p.2 (X (triIndex .C uplo n p.1 p.2)))]
    · rfl
    · rintro ⟨i, j⟩ hm
      obtain ⟨hi, hj, ht⟩ := mem_pairs.1 hm
      exact unpackPair_ok O symm (hp i hi j hj) (hp j hj i hi) (hp i hi i hi) (hg _ (triIndex_lt hi hj ht))
  cases hc : lm.cContig && lv.cContig with
  | false =>
    simp only [Bool.false_eq_true, if_false]
    refine key (fun i hi j hj => h.getM hi hj) fun k hk => ?_
    obtain ⟨x, x1, x2⟩ := bind_ok.1 (h.getV hk)
    simp only [x1, ok_bind, x2]
    exact readAt_ok.2 (hX k hk)
  | true =>
    obtain ⟨c2, c1⟩ := Bool.and_eq_true_iff.1 hc
    have hs := triSize_pos h.pos
    have b1 : ov ≤ b.length := by
      have := (h.vec 0 hs).2
      rw [h.contigV c1 hs] at this
      omega
    have b2 : om ≤ lenA := by
      have := (h.mat 0 h.pos 0 h.pos).2
      rw [h.contigM c2 h.pos h.pos] at this
      omega
    simp only [if_true]
    rw [if_neg (by omega)]
    refine key (fun i hi j hj => by rw [h.contigM c2 hi hj]) fun k hk => ?_
    rw [← h.contigV c1 hk]
    exact readAt_ok.2 (hX k hk)

/-! ## Batches -/

theorem Fit.rest {bl core : List Nat} {l : Layout} (h : Fit (bl ++ core) l) (hz : 0 ∉ core) :
    Fit bl ⟨l.axes.take bl.length, l.offset⟩ := by
  have S := splitAs_of h.shape
  have hg := (valid_iff.1 h.valid).good h.off
  refine ⟨valid_iff.2 (Good.accepted ?_), h.off, S.dx⟩
  refine good_of_sub hg ?_ fun h1 h2 => ?_
  · intro j hj
    rw [show (⟨l.axes.take bl.length, l.offset⟩ : Layout).shape = bl from S.dx] at hj
    have hc : InRange (List.replicate core.length 0) core :=
      inRange_zeros fun d hd => Nat.pos_of_ne_zero (by rintro rfl; exact hz hd)
    refine ⟨j ++ List.replicate core.length 0, by rw [h.shape]; exact (inRange_append hj.length_eq).2 ⟨hj, hc⟩, ?_⟩
    rw [S.addr hj.length_eq, dot_zeros]; omega
  · have : NoOverlap l.axes := by
      rcases hg with hg | hg
      · exact absurd hg h1
      · exact hg.2
    exact this.sublist (List.take_sublist _ _)

theorem tri_batches (dflt : Order) {lo li : Layout} {bl co ci : List Nat} (ho : Fit (bl ++ co) lo) (hi : Fit (bl ++ ci) li)
    (zo : 0 ∉ co) (zi : 0 ∉ ci) : ∃ (e : List (List Nat)) (ra rb : Layout), e.Perm (all .C bl) ∧
      Layout.toColMajorMany dflt [⟨lo.axes.take bl.length, lo.offset⟩, ⟨li.axes.take bl.length, li.offset⟩] .K = .ok [ra, rb] ∧
      colItems ra = .ok (e.map (⟨lo.axes.take bl.length, lo.offset⟩ : Layout).pos) ∧
      colItems rb = .ok (e.map (⟨li.axes.take bl.length, li.offset⟩ : Layout).pos) := by
  obtain ⟨e, mc, ma, h1, h2, -, h3, h4, -⟩ := joint2 dflt (ho.rest zo) (hi.rest zi)
  exact ⟨e, mc, ma, h1, h2, h3, h4⟩

theorem core_addr {l : Layout} {bl core t j : List Nat} (h : Fit (bl ++ core) l) (hz : 0 ∉ core) (ht : InRange t bl) :
    (((⟨l.axes.drop bl.length, l.offset⟩ : Layout).setOffset ((⟨l.axes.take bl.length, l.offset⟩ : Layout).pos t)).addr j =
      l.addr (t ++ j)) := by
  have S := splitAs_of h.shape
  rw [S.addr ht.length_eq, Layout.setOffset, addr_mk]
  have := (h.rest hz).nonneg t ht
  simp only [Layout.pos]
  omega

theorem triPos_of {lv lm : Layout} {bl t : List Nat} {n lenV lenM : Nat} (hn : 0 < n) (hv : Fit (bl ++ [triSize n]) lv)
    (hm : Fit (bl ++ [n, n]) lm) (cv : ∀ idx, InRange idx lv.shape → lv.pos idx < lenV)
    (cm : ∀ idx, InRange idx lm.shape → lm.pos idx < lenM) (ht : InRange t bl) :
    TriPos lenV lenM ⟨lv.axes.drop bl.length, lv.offset⟩ ⟨lm.axes.drop bl.length, lm.offset⟩ n
      ((⟨lv.axes.take bl.length, lv.offset⟩ : Layout).pos t) ((⟨lm.axes.take bl.length, lm.offset⟩ : Layout).pos t)
      (fun k => lv.pos (t ++ [k])) (fun i j => lm.pos (t ++ [i, j])) := by
  have hs := triSize_pos hn
  have key : ∀ {l : Layout} {core : List Nat} {len : Nat}, Fit (bl ++ core) l → 0 ∉ core →
      (∀ idx, InRange idx l.shape → l.pos idx < len) → ∀ j, InRange j core →
      ((⟨l.axes.drop bl.length, l.offset⟩ : Layout).setOffset ((⟨l.axes.take bl.length, l.offset⟩ : Layout).pos t)).addr j =
        (l.pos (t ++ j) : Nat) ∧ l.pos (t ++ j) < len := by
    intro l core len h hz hc j hj
    have hr : InRange (t ++ j) (bl ++ core) := (inRange_append ht.length_eq).2 ⟨ht, hj⟩
    refine ⟨?_, hc _ (by rw [h.shape]; exact hr)⟩
    rw [core_addr h hz ht]
    have := h.nonneg _ hr
    simp only [Layout.pos]
    omega
  refine ⟨hn, (splitAs_of hv.shape).dy, (splitAs_of hm.shape).dy, ?_, ?_⟩
  · intro k hk
    exact key hv (by simp; omega) cv [k] (by simp [inRange_cons, InRange, hk])
  · intro i hi j hj
    exact key hm (by simp; omega) cm [i, j] (by simp [inRange_cons, InRange, hi, hj])


theorem effect_map_at {ι : Type} {xs : List ι} (hn : xs.Nodup) {g : ι → Nat × α} {x : ι} (hx : x ∈ xs)
    (h : ∀ y ∈ xs, y ≠ x → (g y).1 ≠ (g x).1) : effect (g x).1 (ups (xs.map g)) none = some (g x).2 := by
  have e : ups (xs.map g) = xs.flatMap fun y => ups [g y] := by
    clear h hx hn
    induction xs with
    | nil => rfl
    | cons y ys ih => rw [List.map_cons, List.flatMap_cons, ← ih]; rfl
  rw [e, effect_at hn hx]
  · simp [ups, effect]
  · intro y hy hne u hu
    simp only [ups, List.map_cons, List.map_nil, List.mem_singleton] at hu
    subst hu
    exact h y hy hne

theorem append_one_inj {t t' : List Nat} {k k' : Nat} (h : t ++ [k] = t' ++ [k']) : t = t' ∧ k = k' := by
  obtain ⟨h1, h2⟩ := List.append_inj' h rfl
  exact ⟨h1, by simpa using h2⟩

theorem append_two_inj {t t' : List Nat} {i j i' j' : Nat} (h : t ++ [i, j] = t' ++ [i', j']) : t = t' ∧ i = i' ∧ j = j' := by
  obtain ⟨h1, h2⟩ := List.append_inj' h rfl
  simp only [List.cons.injEq, and_true] at h2
  exact ⟨h1, h2⟩

theorem inRange_last {idx bl : List Nat} {m : Nat} (h : InRange idx (bl ++ [m])) : ∃ t k, idx = t ++ [k] ∧ InRange t bl ∧ k < m := by
  have hl := h.length_eq
  simp only [List.length_append, List.length_singleton] at hl
  have e : idx = idx.take bl.length ++ idx.drop bl.length := (List.take_append_drop _ _).symm
  have h1 : (idx.take bl.length).length = bl.length := by simp; omega
  have h2 : (idx.drop bl.length).length = 1 := by simp; omega
  rw [e, inRange_append h1] at h
  match hd : idx.drop bl.length, h2 with
  | [k], _ =>
    rw [hd] at h e
    exact ⟨_, k, e, h.1, by simpa [inRange_cons, InRange] using h.2⟩

theorem inRange_last2 {idx bl : List Nat} {m n : Nat} (h : InRange idx (bl ++ [m, n])) :
    ∃ t i j, idx = t ++ [i, j] ∧ InRange t bl ∧ i < m ∧ j < n := by
  have hl := h.length_eq
  simp only [List.length_append, List.length_cons, List.length_nil] at hl
  have e : idx = idx.take bl.length ++ idx.drop bl.length := (List.take_append_drop _ _).symm
  have h1 : (idx.take bl.length).length = bl.length := by simp; omega
  have h2 : (idx.drop bl.length).length = 2 := by simp; omega
  rw [e, inRange_append h1] at h
  match hd : idx.drop bl.length, h2 with
  | [i, j], _ =>
    rw [hd] at h e
    exact ⟨_, i, j, e, h.1, by simpa [inRange_cons, InRange] using h.2⟩

theorem all_ne_nil {bl : List Nat} (h : 0 ∉ bl) : all .C bl ≠ [] := by
  intro e
  have := length_all .C bl
  rw [e] at this
  have := (prod_ne_zero_iff (shape := bl)).2 fun d hd => Nat.pos_of_ne_zero (by rintro rfl; exact h hd)
  simp only [List.length_nil] at *
  omega

/-- Packing: the plan and what it leaves, in row-major terms. -/
theorem packPlan_ok (dflt : Order) (uplo : UpLo) {la lb : Layout} {bl : List Nat} {n m : Nat} (hn : 0 < n) (hz : 0 ∉ bl)
    (ha : Fit (bl ++ [triSize n]) la) (hb : Fit (bl ++ [n, n]) lb) (ht : ∀ idx, InRange idx la.shape → la.pos idx < m)
    (hinj : ∀ i j, InRange i la.shape → InRange j la.shape → la.pos i = la.pos j → i = j) {b : List α}
    {X : List Nat → Nat → Nat → α} (hX : ∀ t i j, InRange t bl → i < n → j < n → b[lb.pos (t ++ [i, j])]? = some (X t i j)) :
    ∃ one ra rb e ws, packPlan dflt m la b lb uplo = .ok (one, ra, rb) ∧
      TriJob la m one ra rb e ws fun idx v => ∀ t i j, InRange t bl → i < n → j < n → InTri uplo i j →
        idx = t ++ [triIndex .C uplo n i j] → v = X t i j := by
  have hs := triSize_pos hn
  have zo : 0 ∉ [triSize n] := by simp; omega
  have zi : 0 ∉ [n, n] := by simp; omega
  obtain ⟨e, ra, rb, h1, h2, h3, h4⟩ := tri_batches dflt ha hb zo zi
  have he : ∀ {t}, t ∈ e → InRange t bl := fun ht => mem_all.1 (h1.mem_iff.1 ht)
  have s1 := dimSplitAt_of ha.shape (n := -1) rfl (by simp)
  have s2 := dimSplitAt_of hb.shape (n := -2) rfl (by simp)
  have hd : (⟨lb.axes.drop bl.length, lb.offset⟩ : Layout).dimAt 0 = n :=
    dimAt_eq _ 0 n (by rw [show (⟨lb.axes.drop bl.length, lb.offset⟩ : Layout).shape = [n, n] from (splitAs_of hb.shape).dy]; rfl)
  refine ⟨packOne uplo ((⟨la.axes.drop bl.length, la.offset⟩ : Layout).cContig && (⟨lb.axes.drop bl.length, lb.offset⟩ : Layout).cContig) m
    ⟨la.axes.drop bl.length, la.offset⟩ b ⟨lb.axes.drop bl.length, lb.offset⟩ n, ra, rb, e,
    fun t => (triPairs uplo n).map fun p => (la.pos (t ++ [triIndex .C uplo n p.1 p.2]), X t p.1 p.2), ?_, ?_⟩
  · unfold packPlan
    rw [s1, s2]
    simp only [ok_bind, h2, hd]
    rfl
  · have hr : ∀ {t : List Nat} {p : Nat × Nat}, t ∈ e → p ∈ triPairs uplo n →
        InRange (t ++ [triIndex .C uplo n p.1 p.2]) la.shape := by
      intro t p ht hp
      obtain ⟨i1, i2, i3⟩ := mem_pairs.1 hp
      rw [ha.shape]
      exact (inRange_append (he ht).length_eq).2 ⟨he ht, by simp [InRange, triIndex_lt i1 i2 i3]⟩
    refine ⟨h1.nodup_iff.2 (nodup_all _ _), fun h => all_ne_nil hz (by rw [h] at h1; exact List.Perm.nil_eq h1 |>.symm),
      ⟨_, _, h3, h4, fun t ht' => ?_⟩, ?_, ?_, ?_⟩
    · have T := triPos_of hn ha hb ht (lenM := b.length) (fun idx hi => by
        rw [hb.shape] at hi
        obtain ⟨t, i, j, rfl, q1, q2, q3⟩ := inRange_last2 hi
        exact (List.getElem?_eq_some_iff.1 (hX t i j q1 q2 q3)).1) (he ht')
      exact packOne_ok uplo T fun i hi j hj => hX t i j (he ht') hi hj
    · intro t ht' w hw
      obtain ⟨p, hp, rfl⟩ := List.mem_map.1 hw
      exact ht _ (hr ht' hp)
    · intro t ht1 t' ht2 hne w hw w' hw' hc
      obtain ⟨p, hp, rfl⟩ := List.mem_map.1 hw
      obtain ⟨p', hp', rfl⟩ := List.mem_map.1 hw'
      exact hne (append_one_inj (hinj _ _ (hr ht1 hp) (hr ht2 hp') hc)).1
    · intro idx hi
      rw [ha.shape] at hi
      obtain ⟨t, k, rfl, q1, q2⟩ := inRange_last hi
      obtain ⟨i, j, i1, i2, i3, rfl⟩ := triIndex_surj uplo q2
      have hm := mem_pairs.2 ⟨i1, i2, i3⟩
      have hte : t ∈ e := h1.mem_iff.2 (mem_all.2 q1)
      refine ⟨t, hte, X t i j, ?_, ?_, ?_⟩
      · refine effect_map_at (nodup_pairs uplo n) (g := fun p => (la.pos (t ++ [triIndex .C uplo n p.1 p.2]), X t p.1 p.2)) hm ?_
        rintro ⟨i', j'⟩ hy hne hc
        obtain ⟨j1, j2, j3⟩ := mem_pairs.1 hy
        obtain ⟨-, e2⟩ := append_one_inj (hinj _ _ (hr hte hy) (hr hte hm) hc)
        obtain ⟨rfl, rfl⟩ := triIndex_inj j1 j2 j3 i1 i2 i3 e2
        exact hne rfl
      · intro t' i' j' r1 r2 r3 r4 he'
        obtain ⟨rfl, e2⟩ := append_one_inj he'
        obtain ⟨rfl, rfl⟩ := triIndex_inj i1 i2 i3 r2 r3 r4 e2
        rfl
      · exact ⟨_, List.mem_map_of_mem hm, rfl⟩


/-- Element `(i, j)` of an unpacked matrix; `P` are the packed elements. -/
def triVal (O : TriOps α) (uplo : UpLo) (symm : Symm) (n : Nat) (P : Nat → α) (i j : Nat) : α :=
  if i = j then onDiag O.zero O.conj symm (P (triIndex .C uplo n i i))
  else if InTri uplo i j then P (triIndex .C uplo n i j)
  else mirror O.neg O.conj symm (P (triIndex .C uplo n j i))

theorem ups_flatMap {ι : Type} (f : ι → List (Nat × α)) (xs : List ι) : ups (xs.flatMap f) = xs.flatMap fun x => ups (f x) := by
  simp [ups, List.map_flatMap]

theorem inTri_total (uplo : UpLo) (i j : Nat) : InTri uplo i j ∨ InTri uplo j i := by
  cases uplo <;> simp only [InTri] <;> omega

theorem inTri_antisymm {uplo : UpLo} {i j : Nat} (h : InTri uplo i j) (h' : InTri uplo j i) : i = j := by
  cases uplo <;> simp only [InTri] at * <;> omega

theorem inTri_refl (uplo : UpLo) (i : Nat) : InTri uplo i i := by
  cases uplo <;> simp only [InTri] <;> omega

theorem mem_pairW {O : TriOps α} {symm : Symm} {M : Nat → Nat → Nat} {i j : Nat} {v : α} {w : Nat × α}
    (h : w ∈ pairW O symm M i j v) : w.1 = M i j ∨ w.1 = M j i := by
  unfold pairW at h
  cases symm <;> dsimp only at h <;> try split at h
  all_goals
    simp only [List.mem_cons, List.not_mem_nil, or_false] at h
    rcases h with rfl | rfl <;> simp_all

theorem pairs_effect (O : TriOps α) (uplo : UpLo) {symm : Symm} (hs : symm ≠ .N) {n : Nat} {M : Nat → Nat → Nat}
    (hinj : ∀ i j i' j', i < n → j < n → i' < n → j' < n → M i j = M i' j' → i = i' ∧ j = j') (P : Nat → α) {a b : Nat}
    (ha : a < n) (hb : b < n) :
    effect (M a b) (ups ((triPairs uplo n).flatMap fun p => pairW O symm M p.1 p.2 (P (triIndex .C uplo n p.1 p.2)))) none =
      some (triVal O uplo symm n P a b) ∧
    ∃ w ∈ (triPairs uplo n).flatMap fun p => pairW O symm M p.1 p.2 (P (triIndex .C uplo n p.1 p.2)), w.1 = M a b := by
  have one : ∀ i j, i < n → j < n → InTri uplo i j → (a, b) = (i, j) ∨ (a, b) = (j, i) →
      effect (M a b) (ups ((triPairs uplo n).flatMap fun p => pairW O symm M p.1 p.2 (P (triIndex .C uplo n p.1 p.2)))) none =
        effect (M a b) (ups (pairW O symm M i j (P (triIndex .C uplo n i j)))) none := by
    intro i j hi hj ht hab
    rw [ups_flatMap, effect_at (nodup_pairs uplo n) (mem_pairs.2 ⟨hi, hj, ht⟩)]
    rintro ⟨i', j'⟩ hy hne u hu hc
    obtain ⟨y1, y2, y3⟩ := mem_pairs.1 hy
    obtain ⟨w, hw, rfl⟩ := List.mem_map.1 hu
    apply hne
    simp only [Prod.mk.injEq] at hab ⊢
    rcases mem_pairW hw with h | h
    · rw [show w.1 = M a b from hc] at h
      obtain ⟨rfl, rfl⟩ := hinj _ _ _ _ ha hb y1 y2 h
      rcases hab with ⟨rfl, rfl⟩ | ⟨rfl, rfl⟩
      · simp
      · have := inTri_antisymm y3 ht
        simp [this]
    · rw [show w.1 = M a b from hc] at h
      obtain ⟨rfl, rfl⟩ := hinj _ _ _ _ ha hb y2 y1 h
      rcases hab with ⟨rfl, rfl⟩ | ⟨rfl, rfl⟩
      · have := inTri_antisymm y3 ht
        simp [this]
      · simp
  by_cases hab : a = b
  · subst hab
    constructor
    · rw [one a a ha ha (inTri_refl _ _) (.inl rfl)]
      unfold triVal
      rw [if_pos rfl]
      cases symm <;> simp [pairW, ups, effect, onDiag] at *
    · refine ⟨((pairW O symm M a a (P (triIndex .C uplo n a a))).head?).getD (M a a, O.zero), ?_, ?_⟩
      · refine List.mem_flatMap.2 ⟨(a, a), mem_pairs.2 ⟨ha, ha, inTri_refl _ _⟩, ?_⟩
        cases symm <;> simp [pairW]
      · cases symm <;> simp [pairW]
  · have hne : M a b ≠ M b a := fun h => hab (hinj _ _ _ _ ha hb hb ha h).1
    have hab' : ¬ b = a := fun h => hab h.symm
    by_cases ht : InTri uplo a b
    · constructor
      · rw [one a b ha hb ht (.inl rfl)]
        unfold triVal
        rw [if_neg hab, if_pos ht]
        cases symm <;> simp [pairW, ups, effect, hab, hne.symm] at *
      · refine ⟨(M a b, P (triIndex .C uplo n a b)), List.mem_flatMap.2 ⟨(a, b), mem_pairs.2 ⟨ha, hb, ht⟩, ?_⟩, rfl⟩
        cases symm <;> simp [pairW, hab]
    · have ht' : InTri uplo b a := (inTri_total uplo a b).resolve_left ht
      constructor
      · rw [one b a hb ha ht' (.inr rfl)]
        unfold triVal
        rw [if_neg hab, if_neg ht]
        cases symm <;> simp [pairW, ups, effect, hab', mirror] at *
      · refine ⟨(M a b, mirror O.neg O.conj symm (P (triIndex .C uplo n b a))),
          List.mem_flatMap.2 ⟨(b, a), mem_pairs.2 ⟨hb, ha, ht'⟩, ?_⟩, rfl⟩
        cases symm <;> simp [pairW, hab', mirror] at *

/-- Unpacking: the plan and what it leaves, in row-major terms. -/
theorem unpackPlan_ok (dflt : Order) (O : TriOps α) (uplo : UpLo) {symm : Symm} (hsy : symm ≠ .N) {la lb : Layout}
    {bl : List Nat} {n m : Nat} (hn : 0 < n) (hz : 0 ∉ bl)
    (ha : Fit (bl ++ [n, n]) la) (hb : Fit (bl ++ [triSize n]) lb) (ht : ∀ idx, InRange idx la.shape → la.pos idx < m)
    (hinj : ∀ i j, InRange i la.shape → InRange j la.shape → la.pos i = la.pos j → i = j) {b : List α}
    {X : List Nat → Nat → α} (hX : ∀ t k, InRange t bl → k < triSize n → b[lb.pos (t ++ [k])]? = some (X t k)) :
    ∃ one ra rb e ws, unpackPlan dflt O m la b lb uplo symm = .ok (one, ra, rb) ∧
      TriJob la m one ra rb e ws fun idx v => ∀ t i j, InRange t bl → i < n → j < n →
        idx = t ++ [i, j] → v = triVal O uplo symm n (X t) i j := by
  have hs := triSize_pos hn
  have zo : 0 ∉ [n, n] := by simp; omega
  have zi : 0 ∉ [triSize n] := by simp; omega
  obtain ⟨e, ra, rb, h1, h2, h3, h4⟩ := tri_batches dflt ha hb zo zi
  have he : ∀ {t}, t ∈ e → InRange t bl := fun ht => mem_all.1 (h1.mem_iff.1 ht)
  have s1 := dimSplitAt_of ha.shape (n := -2) rfl (by simp)
  have s2 := dimSplitAt_of hb.shape (n := -1) rfl (by simp)
  have hd : (⟨la.axes.drop bl.length, la.offset⟩ : Layout).dimAt 0 = n :=
    dimAt_eq _ 0 n (by rw [show (⟨la.axes.drop bl.length, la.offset⟩ : Layout).shape = [n, n] from (splitAs_of ha.shape).dy]; rfl)
  refine ⟨unpackOne O uplo symm ((⟨la.axes.drop bl.length, la.offset⟩ : Layout).cContig &&
    (⟨lb.axes.drop bl.length, lb.offset⟩ : Layout).cContig) m
    ⟨la.axes.drop bl.length, la.offset⟩ b ⟨lb.axes.drop bl.length, lb.offset⟩ n, ra, rb, e,
    fun t => (triPairs uplo n).flatMap fun p =>
      pairW O symm (fun i j => la.pos (t ++ [i, j])) p.1 p.2 (X t (triIndex .C uplo n p.1 p.2)), ?_, ?_⟩
  · unfold unpackPlan
    rw [s1, s2]
    simp only [ok_bind, h2, hd]
    rfl
  · have hr : ∀ {t : List Nat} {i j : Nat}, InRange t bl → i < n → j < n → InRange (t ++ [i, j]) la.shape := by
      intro t i j ht hi hj
      rw [ha.shape]
      exact (inRange_append ht.length_eq).2 ⟨ht, by simp [InRange, hi, hj]⟩
    have hw : ∀ {t : List Nat}, t ∈ e → ∀ {w : Nat × α}, w ∈ ((triPairs uplo n).flatMap fun p =>
        pairW O symm (fun i j => la.pos (t ++ [i, j])) p.1 p.2 (X t (triIndex .C uplo n p.1 p.2))) →
        ∃ i j, i < n ∧ j < n ∧ w.1 = la.pos (t ++ [i, j]) := by
      intro t ht w hw
      obtain ⟨⟨i, j⟩, hp, hw⟩ := List.mem_flatMap.1 hw
      obtain ⟨i1, i2, -⟩ := mem_pairs.1 hp
      rcases mem_pairW hw with h | h
      · exact ⟨i, j, i1, i2, h⟩
      · exact ⟨j, i, i2, i1, h⟩
    refine ⟨h1.nodup_iff.2 (nodup_all _ _), fun h => all_ne_nil hz (by rw [h] at h1; exact List.Perm.nil_eq h1 |>.symm),
      ⟨_, _, h3, h4, fun t ht' => ?_⟩, ?_, ?_, ?_⟩
    · have T := triPos_of hn hb ha (lenV := b.length) (fun idx hi => by
        rw [hb.shape] at hi
        obtain ⟨t, k, rfl, q1, q2⟩ := inRange_last hi
        exact (List.getElem?_eq_some_iff.1 (hX t k q1 q2)).1) ht (he ht')
      exact unpackOne_ok O uplo symm T fun k hk => hX t k (he ht') hk
    · intro t ht' w hw'
      obtain ⟨i, j, i1, i2, e⟩ := hw ht' hw'
      rw [e]
      exact ht _ (hr (he ht') i1 i2)
    · intro t ht1 t' ht2 hne w hw1 w' hw2 hc
      obtain ⟨i, j, i1, i2, e1⟩ := hw ht1 hw1
      obtain ⟨i', j', j1, j2, e2⟩ := hw ht2 hw2
      rw [e1, e2] at hc
      exact hne (append_two_inj (hinj _ _ (hr (he ht1) i1 i2) (hr (he ht2) j1 j2) hc)).1
    · intro idx hi
      rw [ha.shape] at hi
      obtain ⟨t, i, j, rfl, q1, q2, q3⟩ := inRange_last2 hi
      have hte : t ∈ e := h1.mem_iff.2 (mem_all.2 q1)
      obtain ⟨k1, k2⟩ := pairs_effect O uplo hsy (M := fun i j => la.pos (t ++ [i, j])) (n := n) (fun i j i' j' a1 a2 a3 a4 h =>
        (append_two_inj (hinj _ _ (hr q1 a1 a2) (hr q1 a3 a4) h)).2) (X t) q2 q3
      refine ⟨t, hte, _, k1, ?_, k2⟩
      intro t' i' j' _ _ _ he'
      obtain ⟨rfl, rfl, rfl⟩ := append_two_inj he'
      rfl

theorem TriJob.rev {la : Layout} {n : Nat} {one : Nat → Nat → Res (List (Nat × α))} {ra rb : Layout} {e : List (List Nat)}
    {ws : List Nat → List (Nat × α)} {W : List Nat → α → Prop} (J : TriJob la.reverseAxes n one ra rb e ws W) :
    TriJob la n one ra rb e ws fun idx v => W idx.reverse v := by
  refine ⟨J.nodup, J.ne, J.items, J.lt, J.apart, fun idx hi => ?_⟩
  obtain ⟨t, ht, v, h1, h2, h3⟩ := J.value idx.reverse (by rw [rev_shape]; exact hi.reverse)
  rw [rev_pos (by have := hi.length_eq; simpa [Layout.shape, Layout.ndim] using this), List.reverse_reverse] at h1 h3
  exact ⟨t, ht, v, h1, h2, h3⟩

end
end Rstsr
