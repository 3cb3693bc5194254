import Verif.Model.PackArray
import Verif.Proof.Copy
/-!
# C67: axes packed into arrays
-/
namespace Rstsr
open Spec

variable {α : Type}

/-! ## Lemmas -/

theorem superInc_of_scale {n : Nat} (hn : 0 < n) {c : Nat} {L : List Axis}
    (h : SuperInc (n * c) (L.map fun y => ⟨y.dim, y.str * n⟩)) : SuperInc c L := by
  induction L generalizing c with
  | nil => trivial
  | cons a L ih =>
    obtain ⟨h1, h2⟩ := h
    simp only [Int.natAbs_mul, Int.natAbs_natCast] at h1 h2
    refine ⟨?_, ih ?_⟩
    · rw [mul_comm n] at h1; exact Nat.lt_of_mul_lt_mul_right h1
    · have : n * (c + (a.dim - 1) * a.str.natAbs) = n * c + (a.dim - 1) * (a.str.natAbs * n) := by ring
      rw [this]; exact h2

theorem superInc_scale {n : Nat} (hn : 0 < n) {c : Nat} {L : List Axis} (h : SuperInc c L) :
    SuperInc (n * c + (n - 1)) (L.map fun y => ⟨y.dim, y.str * n⟩) := by
  induction L generalizing c with
  | nil => trivial
  | cons a L ih =>
    obtain ⟨h1, h2⟩ := h
    refine ⟨?_, ?_⟩
    · simp only [Int.natAbs_mul, Int.natAbs_natCast]
      have : n * (c + 1) ≤ n * a.str.natAbs := Nat.mul_le_mul_left n h1
      rw [mul_comm a.str.natAbs]
      rw [Nat.mul_add] at this; omega
    · have := ih h2
      simp only [Int.natAbs_mul, Int.natAbs_natCast]
      have e : n * c + (n - 1) + (a.dim - 1) * (a.str.natAbs * n) = n * (c + (a.dim - 1) * a.str.natAbs) + (n - 1) := by ring
      rw [e]; exact this

theorem filter_scale {n : Nat} (hn : 0 < n) (axes : List Axis) :
    (axes.map fun y => (⟨y.dim, y.str * n⟩ : Axis)).filter Axis.ess = (axes.filter Axis.ess).map fun y => ⟨y.dim, y.str * n⟩ := by
  rw [List.filter_map]
  congr 1
  apply List.filter_congr
  intro x _
  have hn' : n ≠ 0 := by omega
  simp [Axis.ess, hn']

theorem superInc_subst {n : Nat} (hn : 0 < n) {L M : List Axis} (hp : M.Perm (L.map fun y => (⟨y.dim, y.str * n⟩ : Axis))) :
    ∃ K : List Axis, K.Perm L ∧ M = K.map fun y => (⟨y.dim, y.str * n⟩ : Axis) := by
  have hn' : (n : Int) ≠ 0 := by omega
  refine ⟨M.map fun y => ⟨y.dim, y.str / n⟩, ?_, ?_⟩
  · have := hp.map fun y => (⟨y.dim, y.str / n⟩ : Axis)
    rw [List.map_map] at this
    refine this.trans ?_
    rw [show ((fun y => (⟨y.dim, y.str / n⟩ : Axis)) ∘ fun y => (⟨y.dim, y.str * n⟩ : Axis)) = id from
      funext fun y => by simp [hn']; rw [Int.mul_ediv_cancel _ hn'], List.map_id]
  · rw [List.map_map]
    conv_lhs => rw [← List.map_id M]
    apply List.map_congr_left
    intro y hy
    obtain ⟨z, _, rfl⟩ := List.mem_map.1 (hp.subset hy)
    simp only [id, Function.comp_apply]
    rw [Int.mul_ediv_cancel _ hn']

/-- The strides of the axes that matter are multiples of `n`. -/
def Divides (n : Nat) (axes : List Axis) : Prop := ∀ x ∈ axes, x.dim ≤ 1 ∨ (n : Int) ∣ x.str

/-- The axes of the packed tensor. -/
def packAxes (n : Nat) (axes : List Axis) : List Axis := axes.map fun y => ⟨y.dim, Int.tdiv y.str n⟩

theorem dims_packAxes (n : Nat) (axes : List Axis) : dims (packAxes n axes) = dims axes := by
  simp [packAxes, dims, Function.comp_def]

theorem dot_packAxes {n : Nat} {axes : List Axis} (hd : Divides n axes) {idx : List Nat} (hi : InRange idx (dims axes)) :
    dot idx axes = n * dot idx (packAxes n axes) := by
  induction axes generalizing idx with
  | nil => cases idx <;> simp [packAxes, dot]
  | cons x axes ih =>
    cases idx with
    | nil => simp [InRange] at hi
    | cons i idx =>
      rw [show dims (x :: axes) = x.dim :: dims axes from rfl, inRange_cons] at hi
      have := ih (fun y hy => hd y (List.mem_cons_of_mem _ hy)) hi.2
      simp only [packAxes, List.map_cons, dot_cons] at this ⊢
      rw [this, mul_add]
      congr 1
      rcases hd x List.mem_cons_self with h | ⟨k, hk⟩
      · have : i = 0 := by omega
        subst this; simp
      · by_cases hn : (n : Int) = 0
        · rw [hk, hn]; simp
        · rw [hk, Int.mul_tdiv_cancel_left _ hn]; ring

theorem sums_packAxes {n : Nat} (hn : 0 < n) {axes : List Axis} (hd : Divides n axes) (hz : 0 ∉ dims axes) :
    loSum axes = n * loSum (packAxes n axes) ∧ hiSum axes = n * hiSum (packAxes n axes) := by
  induction axes with
  | nil => simp [packAxes, loSum, hiSum]
  | cons x axes ih =>
    rw [show dims (x :: axes) = x.dim :: dims axes from rfl, List.mem_cons, not_or] at hz
    obtain ⟨h1, h2⟩ := ih (fun y hy => hd y (List.mem_cons_of_mem _ hy)) hz.2
    have hn' : (0 : Int) < n := by omega
    have key : (if x.str > 0 then 0 else x.str * ((x.dim : Int) - 1)) =
          n * (if Int.tdiv x.str n > 0 then 0 else Int.tdiv x.str n * ((x.dim : Int) - 1)) ∧
        (if x.str > 0 then x.str * ((x.dim : Int) - 1) else 0) =
          n * (if Int.tdiv x.str n > 0 then Int.tdiv x.str n * ((x.dim : Int) - 1) else 0) := by
      rcases hd x List.mem_cons_self with h | ⟨k, hk⟩
      · have : (x.dim : Int) - 1 = 0 := by omega
        simp [this]
      · rw [hk, Int.mul_tdiv_cancel_left _ (by omega)]
        by_cases hk0 : 0 < k
        · have : 0 < (n : Int) * k := by positivity
          simp only [gt_iff_lt, this, hk0, if_true]; constructor <;> ring
        · have : ¬ 0 < (n : Int) * k := by nlinarith
          simp only [gt_iff_lt, this, hk0, if_false]; constructor <;> ring
    simp only [packAxes, List.map_cons, loSum, hiSum] at h1 h2 ⊢
    rw [h1, h2, key.1, key.2]
    constructor <;> ring

theorem noOverlap_packAxes {n : Nat} (hn : 0 < n) {axes : List Axis} (hd : Divides n axes) (h : NoOverlap axes) :
    NoOverlap (packAxes n axes) := by
  obtain ⟨L, hp, hs⟩ := h
  have hn' : (n : Int) ≠ 0 := by omega
  have e : axes.filter Axis.ess = ((packAxes n axes).filter Axis.ess).map fun y => (⟨y.dim, y.str * n⟩ : Axis) := by
    unfold packAxes
    clear hp
    induction axes with
    | nil => rfl
    | cons x axes ih =>
      have ih := ih (fun y hy => hd y (List.mem_cons_of_mem _ hy))
      rcases hd x List.mem_cons_self with h | ⟨k, hk⟩
      · have h1 : x.ess = false := by simp [Axis.ess]; omega
        have h2 : (⟨x.dim, Int.tdiv x.str n⟩ : Axis).ess = false := by simp [Axis.ess]; omega
        rw [List.filter_cons_of_neg (by simp [h1]), List.map_cons, List.filter_cons_of_neg (by simp [h2]), ih]
      · have hk' : Int.tdiv x.str n = k := by rw [hk, Int.mul_tdiv_cancel_left _ hn']
        have h1 : (⟨x.dim, Int.tdiv x.str n⟩ : Axis).ess = x.ess := by
          rw [hk']; have hn2 : n ≠ 0 := by omega
          simp [Axis.ess, hk, hn2]
        have h2 : (⟨x.dim, Int.tdiv x.str n * n⟩ : Axis) = x := by
          rw [hk', mul_comm, ← hk]
        by_cases hx : x.ess = true
        · rw [List.filter_cons_of_pos hx, List.map_cons, List.filter_cons_of_pos (by rw [h1]; exact hx), List.map_cons, ih]
          congr 1
          exact h2.symm
        · rw [List.filter_cons_of_neg hx, List.map_cons, List.filter_cons_of_neg (by rw [h1]; exact hx), ih]
  rw [e] at hp
  obtain ⟨K, hK, rfl⟩ := superInc_subst hn hp
  exact ⟨K, hK, superInc_of_scale hn (c := 0) (by simpa using hs)⟩

theorem packVec_get {n : Nat} {v : List α} {w : List (List α)} (h : packVec n v = .ok w) :
    0 < n ∧ v.length = n * w.length ∧ ∀ k < w.length, ∃ xs, w[k]? = some xs ∧ xs.length = n ∧ ∀ p < n, xs[p]? = v[k * n + p]? := by
  unfold packVec at h
  split at h
  · cases h
  · rename_i h0
    split at h
    · cases h
    · rename_i h1
      have h1 : v.length % n = 0 := by simpa using h1
      cases h
      have hm := Nat.div_add_mod v.length n
      refine ⟨by omega, by simp; omega, fun k hk => ?_⟩
      simp only [List.length_map, List.length_range] at hk
      refine ⟨(v.drop (k * n)).take n, by simp [hk], ?_, fun p hp => ?_⟩
      · have : (k + 1) * n ≤ v.length / n * n := Nat.mul_le_mul_right n hk
        rw [Nat.add_mul] at this
        rw [mul_comm (v.length / n)] at this
        simp; omega
      · rw [List.getElem?_take_of_lt hp, List.getElem?_drop]

theorem unpackVec_get {n : Nat} {v : List (List α)} (h : ∀ xs ∈ v, xs.length = n) :
    (unpackVec v).length = v.length * n ∧
      ∀ k xs, v[k]? = some xs → ∀ p < n, (unpackVec v)[k * n + p]? = xs[p]? := by
  unfold unpackVec
  induction v with
  | nil => simp
  | cons y v ih =>
    obtain ⟨h1, h2⟩ := ih (fun xs hx => h xs (List.mem_cons_of_mem _ hx))
    have hy := h y List.mem_cons_self
    refine ⟨by simp [h1, hy]; ring, fun k xs hk p hp => ?_⟩
    cases k with
    | zero =>
      simp only [List.getElem?_cons_zero, Option.some.injEq] at hk
      subst hk
      rw [List.flatten_cons, Nat.zero_mul, Nat.zero_add, List.getElem?_append_left (by omega)]
    | succ k =>
      rw [List.getElem?_cons_succ] at hk
      rw [List.flatten_cons, List.getElem?_append_right (by rw [hy, Nat.add_mul]; omega), hy]
      have : (k + 1) * n + p - n = k * n + p := by rw [Nat.add_mul]; omega
      rw [this]
      exact h2 k xs hk p hp

theorem wf_of_inside {d : List α} {m : Layout} (hm : Good m) (ho : 0 ≤ m.offset) (hz : 0 ∈ m.shape → m.offset ≤ d.length)
    (hin : ∀ idx, InRange idx m.shape → m.addr idx < d.length) : (⟨d, m⟩ : Tensor α).WF := by
  refine ⟨ho, ?_⟩
  by_cases h0 : 0 ∈ m.shape
  · exact newF_ok (valid_iff.2 hm.accepted) (boundsIndex_of_zero h0) (hz h0)
  · have hb := boundsIndex_of_pos h0 ho
    have hlo := (hm.resolve_left h0).1
    rw [if_pos hlo] at hb
    refine newF_ok (valid_iff.2 hm.accepted) hb ?_
    obtain ⟨h1, h2⟩ := hiIdx_spec (axes := m.axes) h0
    have := hin _ h1
    rw [addr_eq, h2] at this
    show _ ≤ (d.length : Int)
    omega

theorem packChop_ok {l : Layout} (hl : Accepted l) {a : Nat} (ha : a < l.ndim) (hd : 0 < (l.axes.getD a default).dim) :
    l.dimChop a = .ok ⟨l.axes.eraseIdx a, l.offset⟩ := by
  unfold Layout.dimChop
  rw [checkAxis_ofNat ha]
  have := erase_good hl (a := a) (p := 0) ha (by omega) (by exact_mod_cast hd)
  simp only [mul_zero, add_zero] at this
  exact this.accepted.new

theorem pack_ok {n : Nat} {t : Tensor α} (ht : t.WF) {axis : Int} {c : Tensor (List α)} :
    t.intoPackArray n axis = .ok c ↔ 0 < n ∧ AxisOk t.layout.ndim axis ∧
      t.layout.axes.getD (normAxis t.layout.ndim axis) default = ⟨n, 1⟩ ∧ (n : Int) ∣ t.layout.offset ∧
      packVec n t.data = .ok c.data ∧
      c.layout = ⟨packAxes n (t.layout.axes.eraseIdx (normAxis t.layout.ndim axis)), t.layout.offset / n⟩ := by
  unfold Tensor.intoPackArray
  constructor
  · intro h
    obtain ⟨a, ha, h⟩ := bind_ok.1 h
    obtain ⟨h1, rfl⟩ := checkAxis_ok.1 ha
    dsimp only at h
    split at h
    · cases h
    rename_i h2
    split at h
    · cases h
    rename_i h3
    split at h
    · cases h
    rename_i h4
    split at h
    · cases h
    rename_i h5
    obtain ⟨d, hd, h⟩ := bind_ok.1 h
    obtain ⟨l, hl, h⟩ := bind_ok.1 h
    cases h
    have h2 : (t.layout.axes.getD (normAxis t.layout.ndim axis) default).str = 1 := by simpa using h2
    have h3 : (t.layout.axes.getD (normAxis t.layout.ndim axis) default).dim = n := by simpa using h3
    rw [packChop_ok ht.good.accepted (normAxis_lt h1) (by omega)] at hl
    cases hl
    refine ⟨by omega, h1, ?_, Int.dvd_of_emod_eq_zero (by simpa using h5), hd, rfl⟩
    rw [← h2, ← h3]
  · rintro ⟨h1, h2, h3, h4, h5, h6⟩
    rw [checkAxis_ok.2 ⟨h2, rfl⟩]
    simp only [ok_bind, h3]
    rw [if_neg (by simp), if_neg (by simp), if_neg (by omega), if_neg (by simpa using Int.emod_eq_zero_of_dvd h4), h5]
    simp only [ok_bind]
    rw [packChop_ok ht.good.accepted (normAxis_lt h2) (by rw [h3]; exact h1)]
    simp only [ok_bind]
    rcases c with ⟨cd, cl⟩
    simp only at h6
    rw [h6]; rfl

/-! ## Packing -/

/-- **C67.** What `into_pack_array` accepts: the axis has stride 1 and length `n`, and offset and storage are multiples of `n`. -/
theorem C67_accepts {n : Nat} {t : Tensor α} (ht : t.WF) {axis : Int} :
    (∃ c, t.intoPackArray n axis = .ok c) ↔ 0 < n ∧ AxisOk t.layout.ndim axis ∧
      t.layout.shape[normAxis t.layout.ndim axis]? = some n ∧ t.layout.stride[normAxis t.layout.ndim axis]? = some 1 ∧
      (n : Int) ∣ t.layout.offset ∧ n ∣ t.data.length := by
  have hax : ∀ (h : AxisOk t.layout.ndim axis), (t.layout.axes.getD (normAxis t.layout.ndim axis) default = ⟨n, 1⟩ ↔
      t.layout.shape[normAxis t.layout.ndim axis]? = some n ∧ t.layout.stride[normAxis t.layout.ndim axis]? = some 1) := by
    intro h
    have hlt : normAxis t.layout.ndim axis < t.layout.axes.length := normAxis_lt h
    rw [List.getD_eq_getElem?_getD, List.getElem?_eq_getElem hlt, Option.getD_some]
    unfold Layout.shape Layout.stride
    rw [List.getElem?_map, List.getElem?_map, List.getElem?_eq_getElem hlt]
    simp only [Option.map_some, Option.some.injEq]
    constructor
    · intro h; rw [h]; exact ⟨rfl, rfl⟩
    · rintro ⟨h1, h2⟩; rw [← h1, ← h2]
  constructor
  · rintro ⟨c, h⟩
    obtain ⟨h1, h2, h3, h4, h5, h6⟩ := (pack_ok ht).1 h
    obtain ⟨-, h7, -⟩ := packVec_get h5
    exact ⟨h1, h2, ((hax h2).1 h3).1, ((hax h2).1 h3).2, h4, ⟨_, h7⟩⟩
  · rintro ⟨h1, h2, h3, h4, h5, h6⟩
    have : ∃ d, packVec n t.data = .ok d := by
      unfold packVec
      rw [if_neg (by omega), if_neg (by simpa using Nat.mod_eq_zero_of_dvd h6)]
      exact ⟨_, rfl⟩
    obtain ⟨d, hd⟩ := this
    exact ⟨⟨d, _⟩, (pack_ok ht).2 ⟨h1, h2, (hax h2).2 ⟨h3, h4⟩, h5, hd, rfl⟩⟩

theorem packIdx_split {β : Type} (l : List β) {a : Nat} (h : a < l.length) (d : β) :
    (l.eraseIdx a).insertIdx a (l.getD a d) = l := by
  rw [List.getD_eq_getElem?_getD, List.getElem?_eq_getElem h, Option.getD_some]
  exact List.insertIdx_eraseIdx_getElem h

/-- **C67.** If the other strides are multiples of `n`, the elements of the packed tensor are the arrays of the elements along the
axis, and the packed tensor is well-formed. The code does not check the condition on the strides. -/
theorem C67_pack_partial {n : Nat} {t : Tensor α} (ht : t.WF) {axis : Int} {c : Tensor (List α)}
    (h : t.intoPackArray n axis = .ok c)
    (hd : ∀ b d s, b ≠ normAxis t.layout.ndim axis → t.layout.shape[b]? = some d → t.layout.stride[b]? = some s →
      d ≤ 1 ∨ (n : Int) ∣ s) :
    c.WF ∧ IsPacked n (normAxis t.layout.ndim axis) t.arr c.arr := by
  obtain ⟨hn, hax, hx, ho, hv, hl⟩ := (pack_ok ht).1 h
  have ha : normAxis t.layout.ndim axis < t.layout.axes.length := normAxis_lt hax
  have hD : Divides n (t.layout.axes.eraseIdx (normAxis t.layout.ndim axis)) := by
    intro x hx
    obtain ⟨b, hb, hbx⟩ := List.mem_eraseIdx_iff_getElem?.1 hx
    refine hd b x.dim x.str hb ?_ ?_
    · unfold Layout.shape; rw [List.getElem?_map, hbx]; rfl
    · unfold Layout.stride; rw [List.getElem?_map, hbx]; rfl
  obtain ⟨-, hlen, hget⟩ := packVec_get hv
  generalize normAxis t.layout.ndim axis = a at *
  obtain ⟨o, ho⟩ := ho
  have ho' : t.layout.offset / n = o := by rw [ho, Int.mul_ediv_cancel_left _ (by omega)]
  have hn' : (0 : Int) < n := by omega
  have ho0 : 0 ≤ o := by have := ht.1; rw [ho] at this; nlinarith
  rw [ho'] at hl
  have hshape : t.layout.shape = c.layout.shape.insertIdx a n := by
    rw [hl]
    show dims t.layout.axes = (dims (packAxes n _)).insertIdx a n
    rw [dims_packAxes, dims_eraseIdx]
    have : (dims t.layout.axes).getD a 0 = n := by
      unfold dims
      rw [List.getD_eq_getElem?_getD, List.getElem?_map, List.getElem?_eq_getElem ha]
      rw [List.getD_eq_getElem?_getD, List.getElem?_eq_getElem ha, Option.getD_some] at hx
      rw [hx]; rfl
    rw [← this]
    exact (packIdx_split _ (by simpa [dims] using ha) 0).symm
  have hcd : dims c.layout.axes = dims (t.layout.axes.eraseIdx a) := by rw [hl]; exact dims_packAxes _ _
  have haddr : ∀ idx, InRange idx c.layout.shape → ∀ p : Nat, t.layout.addr (idx.insertIdx a p) = n * c.layout.addr idx + p := by
    intro idx hi p
    have hi' : InRange idx (dims (t.layout.axes.eraseIdx a)) := by rw [← hcd]; exact hi
    have hlen' : idx.length = (t.layout.axes.eraseIdx a).length := by
      rw [hi'.length_eq]; simp [dims]
    rw [List.length_eraseIdx_of_lt ha] at hlen'
    rw [addr_eq, dot_insertIdx ha (by omega), hx, dot_packAxes hD hi', ho, hl, addr_mk]
    push_cast; ring
  have hpos : ∀ idx, InRange idx c.layout.shape → 0 ≤ c.layout.addr idx ∧ c.layout.addr idx < c.data.length := by
    intro idx hi
    have hi' : ∀ p < n, InRange (idx.insertIdx a p) t.layout.shape := by
      intro p hp
      rw [hshape]
      refine inRange_insertIdx' hi ?_ hp
      have : (dims c.layout.axes).length = (dims (t.layout.axes.eraseIdx a)).length := by rw [hcd]
      show a ≤ (dims c.layout.axes).length
      rw [this]
      simp only [dims, List.length_map]
      rw [List.length_eraseIdx_of_lt ha]; omega
    have h0 := C03_in_bounds t.data t.layout t ht.1 ht.2 _ (hi' 0 hn)
    rw [haddr idx hi] at h0
    rw [hlen] at h0
    push_cast at h0
    constructor
    · nlinarith
    · nlinarith
  constructor
  · refine ⟨by rw [hl]; exact ho0, ?_⟩
    have hgood : Good c.layout := by
      unfold Good
      rw [hcd]
      by_cases hz : 0 ∈ dims (t.layout.axes.eraseIdx a)
      · exact .inl hz
      · right
        have hz' : 0 ∉ dims t.layout.axes := by
          intro hmem
          have : t.layout.shape = (dims (t.layout.axes.eraseIdx a)).insertIdx a n := by rw [← hcd]; exact hshape
          rw [show dims t.layout.axes = t.layout.shape from rfl, this] at hmem
          rcases List.mem_insertIdx (by
            simp only [dims, List.length_map]; rw [List.length_eraseIdx_of_lt ha]; omega) |>.1 hmem with h | h
          · omega
          · exact hz h
        rcases ht.good with hg | ⟨hg1, hg2⟩
        · exact absurd hg hz'
        · have hs := sums_packAxes hn hD hz
          refine ⟨?_, ?_⟩
          · rw [hl]
            simp only
            have h1 := loSum_eraseIdx ha
            rw [hx] at h1
            simp only [lo1, gt_iff_lt, zero_lt_one, if_true, sub_zero] at h1
            rw [ho, ← h1, hs.1] at hg1
            have : 0 ≤ (n : Int) * (o + loSum (packAxes n (t.layout.axes.eraseIdx a))) := by linarith
            exact nonneg_of_mul_nonneg_right this hn'
          · rw [hl]
            refine noOverlap_packAxes hn hD ?_
            exact hg2.sublist (List.eraseIdx_sublist ..)
    refine (wf_of_inside hgood (by rw [hl]; exact ho0) (fun _ => ?_) fun idx hi => (hpos idx hi).2).2
    obtain ⟨-, -, -, -, hle⟩ := WF_bounds ht
    rw [hl]
    rw [ho, hlen] at hle
    push_cast at hle
    exact le_of_mul_le_mul_left hle hn'
  · refine ⟨hshape, fun idx hi => ?_⟩
    obtain ⟨h0, h1⟩ := hpos idx hi
    obtain ⟨xs, hxs, hxl, hxp⟩ := hget (c.layout.pos idx) (by unfold Layout.pos; omega)
    refine ⟨xs, ?_, hxl, fun p hp => ?_⟩
    · show element _ _ _ _ = _
      rw [element_eq h0]; exact hxs
    · have e := haddr idx hi p
      have h2 : 0 ≤ t.layout.addr (idx.insertIdx a p) := by rw [e]; positivity
      have h3 : t.layout.pos (idx.insertIdx a p) = c.layout.pos idx * n + p := by
        unfold Layout.pos
        rw [e]
        have : (((c.layout.addr idx).toNat : Nat) : Int) = c.layout.addr idx := Int.toNat_of_nonneg h0
        have h4 : ((n : Int) * c.layout.addr idx + p) = (((c.layout.addr idx).toNat * n + p : Nat) : Int) := by
          push_cast; rw [this]; ring
        rw [h4, Int.toNat_natCast]
      have h5 : xs[p]? = some xs[p] := List.getElem?_eq_getElem (by omega)
      refine ⟨xs[p], h5, ?_⟩
      show element _ _ _ _ = _
      rw [element_eq h2, h3, ← hxp p hp, h5]

/-! ## Unpacking -/

/-- The axes of the unpacked tensor, without the new one. -/
def unpackAxes (n : Nat) (axes : List Axis) : List Axis := axes.map fun y => ⟨y.dim, y.str * n⟩

theorem dims_unpackAxes (n : Nat) (axes : List Axis) : dims (unpackAxes n axes) = dims axes := by
  simp [unpackAxes, dims, Function.comp_def]

theorem dot_unpackAxes (n : Nat) (axes : List Axis) (idx : List Nat) : dot idx (unpackAxes n axes) = n * dot idx axes := by
  induction axes generalizing idx with
  | nil => cases idx <;> simp [unpackAxes, dot]
  | cons x axes ih =>
    cases idx with
    | nil => simp [unpackAxes, dot]
    | cons i idx =>
      have := ih idx
      simp only [unpackAxes, List.map_cons, dot_cons] at this ⊢
      rw [this]; ring

theorem loSum_unpackAxes {n : Nat} (hn : 0 < n) (axes : List Axis) : loSum (unpackAxes n axes) = n * loSum axes := by
  induction axes with
  | nil => simp [unpackAxes, loSum]
  | cons x axes ih =>
    simp only [unpackAxes, List.map_cons, loSum] at ih ⊢
    rw [ih]
    have hn' : (0 : Int) < n := by omega
    by_cases h : 0 < x.str
    · have : 0 < x.str * n := by positivity
      simp only [gt_iff_lt, h, this, if_true]; ring
    · have : ¬ 0 < x.str * n := by nlinarith
      simp only [gt_iff_lt, h, this, if_false]; ring

theorem noOverlap_unpack {n : Nat} (hn : 0 < n) {axes : List Axis} (h : NoOverlap axes) {a : Nat} (ha : a ≤ axes.length) :
    NoOverlap ((unpackAxes n axes).insertIdx a ⟨n, 1⟩) := by
  obtain ⟨L, hp, hs⟩ := h
  have hs' := superInc_scale hn hs
  have hperm := (List.perm_insertIdx (⟨n, 1⟩ : Axis) (unpackAxes n axes) (by simpa [unpackAxes] using ha)).filter Axis.ess
  have hf : (unpackAxes n axes).filter Axis.ess = (axes.filter Axis.ess).map fun y => ⟨y.dim, y.str * n⟩ := filter_scale hn axes
  by_cases h1 : n = 1
  · subst h1
    refine ⟨L.map fun y => ⟨y.dim, y.str * (1 : Nat)⟩, ?_, by simpa using hs'⟩
    rw [List.filter_cons_of_neg (by simp [Axis.ess]), hf] at hperm
    exact (hp.map _).trans hperm.symm
  · refine ⟨⟨n, 1⟩ :: L.map fun y => ⟨y.dim, y.str * n⟩, ?_, by simp, ?_⟩
    · rw [List.filter_cons_of_pos (by simp [Axis.ess]; omega), hf] at hperm
      exact ((hp.map _).cons _).trans hperm.symm
    · simpa using hs'

/-- **C67.** Unpacking: the elements of the arrays become a new axis of length `n` at the given place, and the result is
well-formed. It is refused exactly if the place does not exist. -/
theorem C67_unpack {n : Nat} {t : Tensor (List α)} (ht : t.WF) (hlen : ∀ xs ∈ t.data, xs.length = n) {axis : Int} :
    (AxisOk (t.layout.ndim + 1) axis →
      ∃ c, t.intoUnpackArray n axis = .ok c ∧ c.WF ∧ IsPacked n (normAxis (t.layout.ndim + 1) axis) c.arr t.arr) ∧
    (¬ AxisOk (t.layout.ndim + 1) axis → t.intoUnpackArray n axis = .error .axisError) := by
  constructor
  · intro hax
    have hk := checkAxisInsert_ok.2 ⟨hax, rfl⟩
    have ha : normAxis (t.layout.ndim + 1) axis ≤ t.layout.axes.length := by
      have := normAxis_lt hax; unfold Layout.ndim at this ⊢; omega
    generalize normAxis (t.layout.ndim + 1) axis = a at *
    refine ⟨⟨unpackVec t.data, ⟨(unpackAxes n t.layout.axes).insertIdx a ⟨n, 1⟩, t.layout.offset * n⟩⟩, ?_, ?_⟩
    · unfold Tensor.intoUnpackArray
      rw [hk]; rfl
    obtain ⟨hl, hget⟩ := unpackVec_get hlen
    have hu : (unpackAxes n t.layout.axes).length = t.layout.axes.length := by simp [unpackAxes]
    have hshape : dims ((unpackAxes n t.layout.axes).insertIdx a ⟨n, 1⟩) = t.layout.shape.insertIdx a n := by
      rw [dims_insertIdx, dims_unpackAxes]; rfl
    have haddr : ∀ idx, idx.length = t.layout.axes.length → ∀ p : Nat,
        (⟨(unpackAxes n t.layout.axes).insertIdx a ⟨n, 1⟩, t.layout.offset * n⟩ : Layout).addr (idx.insertIdx a p) =
          n * t.layout.addr idx + p := by
      intro idx hi p
      rw [addr_mk, dot_insertIdx_both (by omega) (by omega), dot_unpackAxes, addr_eq]
      push_cast; ring
    have hidx : ∀ j, InRange j (t.layout.shape.insertIdx a n) → ∃ idx p, InRange idx t.layout.shape ∧ p < n ∧ j = idx.insertIdx a p := by
      intro j hj
      have hjl := hj.length_eq
      have ha' : a ≤ t.layout.shape.length := by simpa [Layout.shape] using ha
      rw [List.length_insertIdx_of_le_length ha'] at hjl
      have h1 := inRange_eraseIdx (a := a) hj
      rw [List.eraseIdx_insertIdx_self] at h1
      refine ⟨j.eraseIdx a, j.getD a 0, h1, ?_, (packIdx_split j (by omega) 0).symm⟩
      have := hj.getD (a := a) (by rw [List.length_insertIdx_of_le_length ha']; omega)
      rwa [List.getD_eq_getElem?_getD (l := t.layout.shape.insertIdx a n), List.getElem?_insertIdx_self, if_pos ha', Option.getD_some] at this
    refine ⟨?_, hshape, fun idx hi => ?_⟩
    · rcases Nat.eq_zero_or_pos n with rfl | hn
      · refine wf_of_inside (.inl ?_) (by simp) (fun _ => by simp) fun j hj => ?_
        · rw [hshape]
          exact (List.mem_insertIdx (by simpa [Layout.shape] using ha)).2 (.inl rfl)
        · obtain ⟨_, p, _, hp, _⟩ := hidx j (by rw [← hshape]; exact hj)
          omega
      · have hn' : (0 : Int) < n := by omega
        have ho : 0 ≤ t.layout.offset * n := mul_nonneg ht.1 hn'.le
        refine wf_of_inside ?_ ho (fun _ => ?_) fun j hj => ?_
        · unfold Good
          rw [hshape]
          rcases ht.good with hg | ⟨hg1, hg2⟩
          · left
            exact (List.mem_insertIdx (by simpa [Layout.shape] using ha)).2 (.inr hg)
          · right
            refine ⟨?_, noOverlap_unpack hn hg2 ha⟩
            simp only
            rw [loSum_insertIdx (by omega), loSum_unpackAxes hn]
            simp only [lo1, gt_iff_lt, zero_lt_one, if_true, add_zero]
            have : t.layout.offset * n + n * loSum t.layout.axes = n * (t.layout.offset + loSum t.layout.axes) := by ring
            rw [this]; exact mul_nonneg hn'.le hg1
        · obtain ⟨-, -, -, -, hle⟩ := WF_bounds ht
          rw [hl]; push_cast
          exact mul_le_mul_of_nonneg_right hle hn'.le
        · obtain ⟨idx, p, hi, hp, rfl⟩ := hidx j (by rw [← hshape]; exact hj)
          have := C03_in_bounds t.data t.layout t ht.1 ht.2 idx hi
          rw [haddr idx (by rw [hi.length_eq]; simp [Layout.shape]), hl]
          push_cast
          have h3 : t.layout.addr idx + 1 ≤ t.data.length := by omega
          nlinarith
    · obtain ⟨xs, hx, hxe⟩ := ht.get hi
      refine ⟨xs, hxe, hlen xs (List.mem_of_getElem? hx), fun p hp => ?_⟩
      have hxl := hlen xs (List.mem_of_getElem? hx)
      have h5 : xs[p]? = some xs[p] := List.getElem?_eq_getElem (by omega)
      refine ⟨xs[p], h5, ?_⟩
      have e := haddr idx (by rw [hi.length_eq]; exact List.length_map ..) p
      have h0 := (C03_in_bounds t.data t.layout t ht.1 ht.2 idx hi).1
      have h2 : 0 ≤ (⟨(unpackAxes n t.layout.axes).insertIdx a ⟨n, 1⟩, t.layout.offset * n⟩ : Layout).addr (idx.insertIdx a p) := by
        rw [e]; positivity
      show element _ _ _ _ = _
      rw [element_eq h2]
      have h3 : (⟨(unpackAxes n t.layout.axes).insertIdx a ⟨n, 1⟩, t.layout.offset * n⟩ : Layout).pos (idx.insertIdx a p) =
          t.layout.pos idx * n + p := by
        unfold Layout.pos
        rw [e]
        have : (((t.layout.addr idx).toNat : Nat) : Int) = t.layout.addr idx := Int.toNat_of_nonneg h0
        have h4 : ((n : Int) * t.layout.addr idx + p) = (((t.layout.addr idx).toNat * n + p : Nat) : Int) := by
          push_cast; rw [this]; ring
        rw [h4, Int.toNat_natCast]
      rw [h3, hget _ xs hx p hp, h5]
  · intro hax
    unfold Tensor.intoUnpackArray checkAxisInsert
    dsimp only
    rw [if_neg]
    · rfl
    · intro h; apply hax
      unfold AxisOk; split at h <;> omega

/-- **C67.** Packing and unpacking at the same place gives back the same array. -/
theorem C67_round_trip_partial {n : Nat} {t : Tensor α} (ht : t.WF) {axis : Int} {c : Tensor (List α)}
    (h : t.intoPackArray n axis = .ok c)
    (hd : ∀ b d s, b ≠ normAxis t.layout.ndim axis → t.layout.shape[b]? = some d → t.layout.stride[b]? = some s →
      d ≤ 1 ∨ (n : Int) ∣ s) :
    ∃ u, c.intoUnpackArray n axis = .ok u ∧ u.WF ∧ t.arr.Same u.arr := by
  obtain ⟨hw, hp⟩ := C67_pack_partial ht h hd
  obtain ⟨hn, hax, hx, ho, hv, hl⟩ := (pack_ok ht).1 h
  obtain ⟨-, -, hget⟩ := packVec_get hv
  have hlen : ∀ xs ∈ c.data, xs.length = n := by
    intro xs hxs
    obtain ⟨k, hk, rfl⟩ := List.getElem_of_mem hxs
    obtain ⟨ys, h1, h2, -⟩ := hget k hk
    rw [List.getElem?_eq_getElem hk, Option.some.injEq] at h1
    rw [h1]; exact h2
  have ha : normAxis t.layout.ndim axis < t.layout.ndim := normAxis_lt hax
  have hnd : c.layout.ndim + 1 = t.layout.ndim := by
    rw [hl]
    unfold Layout.ndim packAxes at *
    rw [List.length_map, List.length_eraseIdx_of_lt ha]; omega
  obtain ⟨u, h1, h2, h3⟩ := (C67_unpack hw hlen (axis := axis)).1 (by rw [hnd]; exact hax)
  refine ⟨u, h1, h2, ?_⟩
  rw [hnd] at h3
  generalize normAxis t.layout.ndim axis = a at *
  have hs : u.arr.shape = t.arr.shape := by rw [h3.1, hp.1]
  refine ⟨hs, fun j hj => ?_⟩
  rw [hp.1] at hj
  have ha' : a ≤ c.arr.shape.length := by
    show a ≤ c.layout.shape.length
    simp only [Layout.shape, List.length_map]
    unfold Layout.ndim at hnd ha; omega
  have hjl := hj.length_eq
  rw [List.length_insertIdx_of_le_length ha'] at hjl
  have h4 := inRange_eraseIdx (a := a) hj
  rw [List.eraseIdx_insertIdx_self] at h4
  have h5 := hj.getD (a := a) (by rw [List.length_insertIdx_of_le_length ha']; omega)
  rw [List.getD_eq_getElem?_getD (l := c.arr.shape.insertIdx a n), List.getElem?_insertIdx_self, if_pos ha', Option.getD_some] at h5
  have h6 := packIdx_split j (a := a) (by omega) 0
  obtain ⟨xs, e1, -, e2⟩ := hp.2 _ h4
  obtain ⟨ys, e3, -, e4⟩ := h3.2 _ h4
  rw [e1] at e3; cases e3
  obtain ⟨x, e5, e6⟩ := e2 _ h5
  obtain ⟨y, e7, e8⟩ := e4 _ h5
  rw [e5] at e7; cases e7
  rw [h6] at e6 e8
  exact ⟨x, e6, e8⟩

/-! ## Memory -/

/-- **C67.** If the vector has no spare capacity, dropping the packed or unpacked vector gives back what was allocated. -/
theorem C67_memory_partial {n : Nat} (hn : 0 < n) {v : RawVec} (h : v.allocated = v.freed) (hc : v.cap = v.len) :
    (n ∣ v.len → (v.pack n).allocated = (v.pack n).freed) ∧ (n ∣ v.size → (v.unpack n).allocated = (v.unpack n).freed) := by
  unfold RawVec.freed at h
  refine ⟨?_, ?_⟩
  · rintro ⟨k, hk⟩
    show v.allocated = v.len / n * (n * v.size)
    rw [h, hc, hk, Nat.mul_div_cancel_left _ hn]; ring
  · rintro ⟨k, hk⟩
    show v.allocated = v.len * n * (v.size / n)
    rw [h, hc, hk, Nat.mul_div_cancel_left _ hn]; ring

/-- A vector of four numbers of eight bytes with room for five: the packed vector gives back 32 of the 40 bytes. The allocator
must be given the size it was asked for. -/
theorem C67_false_capacity : ∃ v : RawVec, v.allocated = v.freed ∧ v.len ≤ v.cap ∧ 2 ∣ v.len ∧ (v.pack 2).allocated ≠ (v.pack 2).freed :=
  ⟨⟨40, 4, 5, 8⟩, by decide, by decide, by decide, by decide⟩

/-- Two rows of two elements cut out of two rows of three: the storage is a multiple of two, the stride of the rows is not. -/
def cutRows : Tensor Nat := ⟨[0, 1, 2, 3, 4, 5], ⟨[⟨2, 3⟩, ⟨2, 1⟩], 0⟩⟩

/-- The second row of `[[0, 1], [3, 4]]` is `[3, 4]`; packed, it is `[2, 3]`. -/
theorem C67_false_stride : cutRows.WF ∧ ∃ c, cutRows.intoPackArray 2 (-1) = .ok c ∧ c.arr.elem [1] = some [2, 3] ∧
    cutRows.arr.elem [1, 0] = some 3 ∧ cutRows.arr.elem [1, 1] = some 4 ∧ ¬ IsPacked 2 1 cutRows.arr c.arr := by
  refine ⟨⟨by decide, rfl⟩, ⟨[[0, 1], [2, 3], [4, 5]], ⟨[⟨2, 1⟩], 0⟩⟩, rfl, rfl, rfl, rfl, ?_⟩
  rintro ⟨-, h⟩
  obtain ⟨xs, h1, -, h2⟩ := h [1] (by decide)
  obtain ⟨x, h3, h4⟩ := h2 0 (by decide)
  cases h1
  cases h3
  exact absurd h4 (by decide)

/-! ## The hypotheses are met -/

/-- Rows backwards, with an offset: strides -4, 1 and offset 8 for arrays of two. -/
def backRows : Tensor Nat := ⟨[0, 1, 2, 3, 4, 5, 6, 7, 8, 9], ⟨[⟨2, 1⟩, ⟨3, -4⟩], 8⟩⟩

example : backRows.WF ∧ (∃ c, backRows.intoPackArray 2 0 = .ok c ∧ c.data = [[0, 1], [2, 3], [4, 5], [6, 7], [8, 9]] ∧
    c.layout = ⟨[⟨3, -2⟩], 4⟩ ∧ IsPacked 2 0 backRows.arr c.arr ∧ ∃ u, c.intoUnpackArray 2 0 = .ok u ∧ backRows.arr.Same u.arr) := by
  have hw : backRows.WF := ⟨by decide, rfl⟩
  refine ⟨hw, ⟨[[0, 1], [2, 3], [4, 5], [6, 7], [8, 9]], ⟨[⟨3, -2⟩], 4⟩⟩, rfl, rfl, rfl, ?_⟩
  have hd : ∀ b d s, b ≠ normAxis backRows.layout.ndim 0 → backRows.layout.shape[b]? = some d →
      backRows.layout.stride[b]? = some s → d ≤ 1 ∨ ((2 : Nat) : Int) ∣ s := by
    intro b d s hb h1 h2
    match b, hb, h1, h2 with
    | 0, hb, _, _ => exact absurd rfl hb
    | 1, _, _, h2 => right; cases h2; decide
    | b + 2, _, h1, _ => simp [backRows, Layout.shape] at h1
  have h := C67_pack_partial hw (axis := 0) (n := 2) rfl hd
  obtain ⟨u, h1, -, h3⟩ := C67_round_trip_partial hw (axis := 0) (n := 2) rfl hd
  exact ⟨h.2, u, h1, h3⟩

example : (∃ c, backRows.intoPackArray 3 1 = .ok c) ↔ False := by
  rw [C67_accepts ⟨by decide, rfl⟩]
  simp [backRows, Layout.shape, Layout.stride, Layout.ndim, normAxis]

end Rstsr
