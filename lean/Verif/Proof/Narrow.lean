import Verif.Spec.Multi
import Verif.Proof.Single
/-! # Lemmas about slicing one axis -/
namespace Rstsr
open Spec

/-- The layout passes the checks of `Layout::new`. -/
abbrev Layout.Valid (l : Layout) : Prop := Layout.new l.shape l.stride l.offset = .ok l

theorem valid_iff {l : Layout} : l.Valid ↔ Accepted l := by
  constructor
  · exact accepted_new
  · intro h
    obtain ⟨_, h3, h4⟩ := newAxes_ok.1 h
    exact new_ok.2 ⟨by simp [Layout.shape, Layout.stride], rfl, rfl, rfl, h3, h4⟩

theorem Accepted.new {axes : List Axis} {off : Int} (h : Accepted ⟨axes, off⟩) :
    Layout.newAxes axes off = .ok ⟨axes, off⟩ := h

theorem count_spec {D t : Int} (ht : 0 < t) (hD : 0 ≤ D) (k : Nat) :
    k < (max (Int.tdiv (D + t - 1) t) 0).toNat ↔ (k : Int) * t < D := by
  rw [Int.tdiv_eq_ediv_of_nonneg (by omega)]
  have h0 : 0 ≤ (D + t - 1) / t := Int.ediv_nonneg (by omega) (by omega)
  rw [max_eq_left h0]
  have h1 : k < ((D + t - 1) / t).toNat ↔ (k : Int) + 1 ≤ (D + t - 1) / t := by omega
  rw [h1, Int.le_ediv_iff_mul_le ht]
  constructor
  · intro h; nlinarith
  · intro h; nlinarith

theorem neg_tdiv_form {stop start step : Int} :
    Int.tdiv (stop - start + step + 1) step = Int.tdiv ((start - stop) + (-step) - 1) (-step) := by
  have : stop - start + step + 1 = -((start - stop) + (-step) - 1) := by ring
  rw [this, Int.tdiv_neg, Int.neg_tdiv]

theorem resolvePos_le {len : Nat} {s : SliceI} :
    (resolvePos len s).1 ≤ (resolvePos len s).2 ∧ 0 ≤ (resolvePos len s).1 ∧ (resolvePos len s).2 ≤ len := by
  unfold resolvePos; dsimp only
  have h0 : 0 ≤ (if s.start.getD 0 < 0 then max ((len : Int) + s.start.getD 0) 0 else s.start.getD 0) := by
    split <;> omega
  generalize (if s.start.getD 0 < 0 then max ((len : Int) + s.start.getD 0) 0 else s.start.getD 0) = a at *
  generalize (if s.stop.getD (len : Int) < 0 then max ((len : Int) + s.stop.getD len) 0 else s.stop.getD len) = b
  split_ifs <;> simp only <;> omega

/-- Result of the positive-step branch. -/
theorem resolvePos_spec {len : Nat} {s : SliceI} {step : Int} (hstep : 0 < step) (k : Nat)
    (hk : k < (max (Int.tdiv ((resolvePos len s).2 - (resolvePos len s).1 + step - 1) step) 0).toNat) :
      (resolvePos len s).1 = pyStart len s.start step := by
  obtain ⟨h1, h2, h3⟩ := resolvePos_le (len := len) (s := s)
  rw [count_spec hstep (by omega)] at hk
  have hk0 : 0 ≤ (k : Int) * step := by positivity
  have hlt : (resolvePos len s).1 < (resolvePos len s).2 := by omega
  clear h1 h2 h3 hk
  obtain ⟨a, b, c⟩ := s
  unfold resolvePos at hlt ⊢
  simp only [pyStart, if_pos hstep, pyClamp]
  dsimp only at hlt ⊢
  generalize (if b.getD (len : Int) < 0 then max ((len : Int) + b.getD len) 0 else b.getD len) = st at hlt ⊢
  cases a with
  | none =>
    simp only [Option.getD_none] at hlt ⊢
    split_ifs at hlt ⊢ <;> simp only at hlt ⊢ <;> omega
  | some v =>
    simp only [Option.getD_some] at hlt ⊢
    split_ifs at hlt ⊢ <;> simp only at hlt ⊢ <;> omega

theorem resolvePos_count {len : Nat} {s : SliceI} {step : Int} (hstep : 0 < step) :
    PyCount len s.start s.stop step
      (max (Int.tdiv ((resolvePos len s).2 - (resolvePos len s).1 + step - 1) step) 0).toNat := by
  intro k
  obtain ⟨h1, h2, h3⟩ := resolvePos_le (len := len) (s := s)
  rw [count_spec hstep (by omega)]
  unfold PyHas
  rw [if_pos hstep]
  have hk0 : 0 ≤ (k : Int) * step := by positivity
  generalize (k : Int) * step = K at *
  obtain ⟨a, b, c⟩ := s
  unfold resolvePos
  simp only [pyStart, pyStop, if_pos hstep]
  cases a <;> cases b <;> simp only [Option.getD_none, Option.getD_some, pyClamp] <;>
    split_ifs <;> (try simp only) <;> omega

theorem resolveNeg_le {len : Nat} {s : SliceI} (hl : 0 < len) :
    (resolveNeg len s).2 ≤ (resolveNeg len s).1 ∧ -1 ≤ (resolveNeg len s).2 ∧
      (resolveNeg len s).1 ≤ (len : Int) - 1 := by
  unfold resolveNeg; dsimp only
  have h0 : -1 ≤ (if s.stop.getD (-1) < -1 then max ((len : Int) + s.stop.getD (-1)) (-1) else s.stop.getD (-1)) := by
    split <;> omega
  generalize (if s.start.getD ((len : Int) - 1) < 0 then max ((len : Int) + s.start.getD ((len : Int) - 1)) 0
    else s.start.getD ((len : Int) - 1)) = a
  generalize (if s.stop.getD (-1) < -1 then max ((len : Int) + s.stop.getD (-1)) (-1) else s.stop.getD (-1)) = b at *
  split_ifs <;> simp only <;> omega

theorem resolveNeg_count {len : Nat} {s : SliceI} {step : Int} (hl : 0 < len) (hstep : step < 0)
    (hok : NegStepOk len s) :
    PyCount len s.start s.stop step
      (max (Int.tdiv ((resolveNeg len s).2 - (resolveNeg len s).1 + step + 1) step) 0).toNat := by
  intro k
  obtain ⟨h1, h2, h3⟩ := resolveNeg_le (s := s) hl
  rw [neg_tdiv_form, count_spec (by omega) (by omega)]
  unfold PyHas
  rw [if_neg (by omega)]
  have hk0 : (k : Int) * step ≤ 0 := Int.mul_nonpos_of_nonneg_of_nonpos (by omega) (by omega)
  rw [Int.mul_neg]
  generalize (k : Int) * step = K at *
  obtain ⟨a, b, c⟩ := s
  obtain ⟨o1, o2⟩ := hok
  simp only at o1 o2
  unfold resolveNeg
  simp only [pyStart, pyStop, if_neg (show ¬ step > 0 by omega)]
  cases a with
  | none =>
    cases b with
    | none => simp only [Option.getD_none]; split_ifs <;> (try simp only) <;> omega
    | some w =>
      have : w ≠ -1 := by rintro rfl; exact o1 rfl
      simp only [Option.getD_none, Option.getD_some, pyClamp]; split_ifs <;> (try simp only) <;> omega
  | some v =>
    have := o2 v rfl
    cases b with
    | none => simp only [Option.getD_none, Option.getD_some, pyClamp]; split_ifs <;> (try simp only) <;> omega
    | some w =>
      have : w ≠ -1 := by rintro rfl; exact o1 rfl
      simp only [Option.getD_some, pyClamp]; split_ifs <;> (try simp only) <;> omega

theorem resolveNeg_start {len : Nat} {s : SliceI} {step : Int} (hl : 0 < len) (hstep : step < 0)
    (hok : NegStepOk len s) (k : Nat)
    (hk : k < (max (Int.tdiv ((resolveNeg len s).2 - (resolveNeg len s).1 + step + 1) step) 0).toNat) :
    (resolveNeg len s).1 = pyStart len s.start step := by
  obtain ⟨h1, h2, h3⟩ := resolveNeg_le (s := s) hl
  rw [neg_tdiv_form, count_spec (by omega) (by omega)] at hk
  have hk0 : (k : Int) * step ≤ 0 := Int.mul_nonpos_of_nonneg_of_nonpos (by omega) (by omega)
  rw [Int.mul_neg] at hk
  generalize (k : Int) * step = K at *
  have hlt : (resolveNeg len s).2 < (resolveNeg len s).1 := by omega
  clear h1 h2 h3 hk
  obtain ⟨a, b, c⟩ := s
  obtain ⟨o1, o2⟩ := hok
  simp only at o1 o2
  unfold resolveNeg at hlt ⊢
  simp only [pyStart, if_neg (show ¬ step > 0 by omega)]
  dsimp only at hlt ⊢
  generalize (if b.getD (-1) < -1 then max ((len : Int) + b.getD (-1)) (-1) else b.getD (-1)) = st at *
  cases a with
  | none =>
    simp only [Option.getD_none] at hlt ⊢
    split_ifs at hlt ⊢ <;> simp only at hlt ⊢ <;> omega
  | some v =>
    have := o2 v rfl
    simp only [Option.getD_some, pyClamp] at hlt ⊢
    split_ifs at hlt ⊢ <;> simp only at hlt ⊢ <;> omega

/-- What slicing an axis does, for some start, step and count inside the axis. -/
structure NarrowTo (l m : Layout) (a n : Nat) (start step : Int) : Prop where
  lt : a < l.axes.length
  ne : step ≠ 0
  inside : ∀ k : Nat, k < n → 0 ≤ start + k * step ∧ start + k * step < (l.axes.getD a default).dim
  form : (m.axes = l.axes.set a ⟨n, (l.axes.getD a default).str * step⟩ ∧
      m.offset = l.offset + (l.axes.getD a default).str * start) ∨
    (n = 0 ∧ (l.axes.getD a default).dim = 0 ∧ m = l)

theorem set_getD_self {α : Type} {L : List α} {a : Nat} {d : α} : L.set a (L.getD a d) = L := by
  by_cases h : a < L.length
  · rw [List.getD_eq_getElem?_getD, List.getElem?_eq_getElem h]; simp
  · exact List.set_eq_of_length_le (by omega)

theorem NarrowTo.shape {l m : Layout} {a n : Nat} {start step : Int} (h : NarrowTo l m a n start step) :
    m.shape = l.shape.set a n := by
  rcases h.form with ⟨h1, _⟩ | ⟨h1, h2, h3⟩
  · have := dims_set l.axes a ⟨n, (l.axes.getD a default).str * step⟩
    rw [← h1] at this
    exact this
  · subst h1; subst h3
    rw [← dims_getD] at h2
    conv_lhs => rw [← set_getD_self (L := m.shape) (a := a) (d := 0)]
    exact congrArg _ h2

theorem NarrowTo.good {l m : Layout} {a n : Nat} {start step : Int} (h : NarrowTo l m a n start step)
    (hl : Accepted l) : Good m := by
  rcases h.form with ⟨e1, e2⟩ | ⟨h1, h2, h3⟩
  · have := narrow_good hl (a := a) (n := n) (start := start) (step := step) h.lt h.ne (by
      intro hn
      have h1 := h.inside 0 (by omega)
      have h2 := h.inside (n - 1) (by omega)
      have e : ((n - 1 : Nat) : Int) = (n : Int) - 1 := by omega
      rw [e] at h2
      simp only [Nat.cast_zero, zero_mul, add_zero] at h1
      omega)
    obtain ⟨ax, off⟩ := m
    simp only at e1 e2
    rw [e1, e2]; exact this
  · left; rw [h3, ← h2]; exact List.mem_map_of_mem (getD_mem h.lt)

theorem NarrowTo.elem {l m : Layout} {a n : Nat} {start step : Int} (h : NarrowTo l m a n start step)
    {j : List Nat} (hj : InRange j m.shape) :
    InRange (j.set a (start + (j.getD a 0 : Nat) * step).toNat) l.shape ∧
      m.addr j = l.addr (j.set a (start + (j.getD a 0 : Nat) * step).toNat) ∧
      0 ≤ start + (j.getD a 0 : Nat) * step ∧
      start + (j.getD a 0 : Nat) * step < (l.axes.getD a default).dim := by
  have hlt := h.lt
  have hjl : j.length = l.axes.length := by
    have := hj.length_eq; rw [h.shape] at this; simpa [Layout.shape] using this
  rw [h.shape] at hj
  have hsl : a < l.shape.length := by simpa [Layout.shape] using hlt
  obtain ⟨h1, h2⟩ := inRange_set (p := (start + (j.getD a 0 : Nat) * step).toNat) hsl hj
  obtain ⟨g1, g2⟩ := h.inside _ h1
  have hd : l.shape.getD a 0 = (l.axes.getD a default).dim := dims_getD l.axes a
  refine ⟨h2 (by rw [hd]; omega), ?_, g1, g2⟩
  rcases h.form with ⟨e1, e2⟩ | ⟨h1, h2, h3⟩
  · rw [addr_eq, addr_eq, e1, e2, dot_set_axes hlt hjl, dot_set_idx hlt hjl]
    rw [Int.toNat_of_nonneg g1]
    ring
  · omega

/-- `dim_narrow` on a layout accepted by `Layout::new`. -/
theorem dimNarrow_spec {l : Layout} (hl : Accepted l) {axis : Int} {s : SliceI}
    (hax : AxisOk l.ndim axis) (hs : s.step ≠ some 0) :
    ∃ m n start, l.dimNarrow axis s = .ok m ∧
      NarrowTo l m (normAxis l.ndim axis) n start (s.step.getD 1) ∧
      ((s.step.getD 1 < 0 → NegStepOk (l.axes.getD (normAxis l.ndim axis) default).dim s) →
        PyCount (l.axes.getD (normAxis l.ndim axis) default).dim s.start s.stop (s.step.getD 1) n ∧
        (n ≠ 0 → start = pyStart (l.axes.getD (normAxis l.ndim axis) default).dim s.start (s.step.getD 1))) := by
  have ha : normAxis l.ndim axis < l.axes.length := normAxis_lt hax
  have hck : checkAxis axis l.ndim = .ok (normAxis l.ndim axis) := checkAxis_ok.2 ⟨hax, rfl⟩
  unfold Layout.dimNarrow
  rw [hck]
  simp only [ok_bind]
  generalize hA : normAxis l.ndim axis = a at *
  have hx' : l.axes.set a (l.axes.getD a default) = l.axes := set_getD_self
  generalize hx : l.axes.getD a default = x at *
  by_cases hfull : s = ⟨none, none, none⟩
  · subst hfull
    refine ⟨l, x.dim, 0, by simp, ⟨ha, by simp, ?_, Or.inl ⟨?_, ?_⟩⟩, ?_⟩
    · intro k hk; rw [hx]; simp; exact hk
    · rw [hx]; simpa using hx'.symm
    · simp
    · intro _
      refine ⟨fun k => ?_, fun _ => by simp [pyStart]⟩
      simp [PyHas, pyStart, pyStop]
  rw [if_neg hfull]
  have hst : s.step.getD 1 ≠ 0 := by
    cases h : s.step with
    | none => simp
    | some v => rw [h] at hs; simpa using hs
  rw [if_neg hst]
  generalize hS : s.step.getD 1 = step at *
  by_cases hd : x.dim = 0
  · rw [if_pos hd]
    refine ⟨l, 0, 0, rfl, ⟨ha, hst, by simp, Or.inr ⟨rfl, by rw [hx]; exact hd, rfl⟩⟩, ?_⟩
    intro _
    refine ⟨fun k => ?_, by simp⟩
    simp only [Nat.not_lt_zero, false_iff, hd]
    unfold PyHas pyStart pyStop pyClamp
    obtain ⟨s1, s2, s3⟩ := s
    by_cases hp : step > 0
    · have : 0 ≤ (k : Int) * step := by positivity
      generalize (k : Int) * step = K at *
      simp only [if_pos hp]
      cases s1 <;> cases s2 <;> simp only <;> (try split_ifs) <;> omega
    · have : (k : Int) * step ≤ 0 := Int.mul_nonpos_of_nonneg_of_nonpos (by omega) (by omega)
      generalize (k : Int) * step = K at *
      simp only [if_neg hp]
      cases s1 <;> cases s2 <;> simp only <;> (try split_ifs) <;> omega
  rw [if_neg hd]
  by_cases hpos : step > 0
  · rw [if_pos hpos]
    have hc := resolvePos_count (len := x.dim) (s := s) hpos
    have hb := resolvePos_le (len := x.dim) (s := s)
    have hstart := resolvePos_spec (len := x.dim) (s := s) hpos
    generalize resolvePos x.dim s = rs at *
    obtain ⟨start, stop⟩ := rs
    simp only at hb hc hstart ⊢
    have hcs := count_spec (D := stop - start) hpos (by omega)
    generalize (max (Int.tdiv (stop - start + step - 1) step) 0).toNat = n at *
    have hN : NarrowTo l ⟨l.axes.set a ⟨n, x.str * step⟩, l.offset + x.str * start⟩ a n start step := by
      refine ⟨ha, hst, ?_, Or.inl ⟨by rw [hx], by rw [hx]⟩⟩
      intro k hk
      rw [hcs] at hk
      rw [hx]
      have : 0 ≤ (k : Int) * step := by positivity
      omega
    exact ⟨_, n, start, (hN.good hl).accepted.new, hN, fun _ => ⟨hc, fun hn => hstart 0 (by omega)⟩⟩
  · rw [if_neg hpos]
    have hneg : step < 0 := by omega
    have hb := resolveNeg_le (len := x.dim) (s := s) (by omega)
    have hc := resolveNeg_count (len := x.dim) (s := s) (by omega) hneg
    have hstart := resolveNeg_start (len := x.dim) (s := s) (by omega) hneg
    generalize resolveNeg x.dim s = rs at *
    obtain ⟨start, stop⟩ := rs
    simp only at hb hc hstart ⊢
    have hcs := count_spec (D := start - stop) (t := -step) (by omega) (by omega)
    rw [← neg_tdiv_form] at hcs
    generalize (max (Int.tdiv (stop - start + step + 1) step) 0).toNat = n at *
    have hN : NarrowTo l ⟨l.axes.set a ⟨n, x.str * step⟩, l.offset + x.str * start⟩ a n start step := by
      refine ⟨ha, hst, ?_, Or.inl ⟨by rw [hx], by rw [hx]⟩⟩
      intro k hk
      rw [hcs, Int.mul_neg] at hk
      rw [hx]
      have : (k : Int) * step ≤ 0 := Int.mul_nonpos_of_nonneg_of_nonpos (by omega) (by omega)
      omega
    exact ⟨_, n, start, (hN.good hl).accepted.new, hN, fun hok => ⟨hc (hok hneg), fun hn => hstart (hok hneg) 0 (by omega)⟩⟩

theorem dimNarrow_ok_axis {l m : Layout} {axis : Int} {s : SliceI} (h : l.dimNarrow axis s = .ok m) :
    AxisOk l.ndim axis ∧ s.step ≠ some 0 := by
  unfold Layout.dimNarrow at h
  obtain ⟨a, ha, h⟩ := bind_ok.1 h
  obtain ⟨h1, rfl⟩ := checkAxis_ok.1 ha
  refine ⟨h1, ?_⟩
  intro hs
  rw [if_neg (by rintro rfl; cases hs)] at h
  simp [hs] at h

/-! ## Removing and inserting an axis -/

theorem dimSelect_ok {l m : Layout} (hl : Accepted l) {axis index : Int} :
    l.dimSelect axis index = .ok m ↔ AxisOk l.ndim axis ∧
      AxisOk (l.axes.getD (normAxis l.ndim axis) default).dim index ∧
      m = ⟨l.axes.eraseIdx (normAxis l.ndim axis), l.offset +
        (l.axes.getD (normAxis l.ndim axis) default).str *
          (normAxis (l.axes.getD (normAxis l.ndim axis) default).dim index : Nat)⟩ := by
  unfold Layout.dimSelect
  constructor
  · intro h
    obtain ⟨a, ha, h⟩ := bind_ok.1 h
    obtain ⟨h1, rfl⟩ := checkAxis_ok.1 ha
    generalize hx : l.axes.getD (normAxis l.ndim axis) default = x at *
    dsimp only at h
    generalize hi : (if index < 0 then (x.dim : Int) + index else index) = i at h
    split at h
    · rename_i hc
      have e : ((normAxis x.dim index : Nat) : Int) = i := by
        unfold normAxis; split at hi <;> simp_all <;> omega
      refine ⟨h1, ?_, ?_⟩
      · unfold AxisOk; split at hi <;> omega
      · rw [e]; exact (newAxes_ok.1 h).1
    · cases h
  · rintro ⟨h1, h2, rfl⟩
    rw [checkAxis_ok.2 ⟨h1, rfl⟩]
    have ha : normAxis l.ndim axis < l.axes.length := normAxis_lt h1
    simp only [ok_bind]
    have hp := normAxis_lt h2
    have e : ((normAxis (l.axes.getD (normAxis l.ndim axis) default).dim index : Nat) : Int) =
        (if index < 0 then ((l.axes.getD (normAxis l.ndim axis) default).dim : Int) + index else index) := by
      unfold normAxis AxisOk at *; split <;> omega
    rw [← e]
    rw [if_pos (by omega)]
    exact (erase_good hl ha (by omega) (by exact_mod_cast hp)).accepted.new

theorem dimEliminate_ok {l m : Layout} (hl : Accepted l) {axis : Int} :
    l.dimEliminate axis = .ok m ↔ AxisOk l.ndim axis ∧
      (l.axes.getD (normAxis l.ndim axis) default).dim = 1 ∧
      m = ⟨l.axes.eraseIdx (normAxis l.ndim axis), l.offset⟩ := by
  unfold Layout.dimEliminate
  constructor
  · intro h
    obtain ⟨a, ha, h⟩ := bind_ok.1 h
    obtain ⟨h1, rfl⟩ := checkAxis_ok.1 ha
    split at h
    · cases h
    · rename_i hc
      exact ⟨h1, by simpa using hc, (newAxes_ok.1 h).1⟩
  · rintro ⟨h1, h2, rfl⟩
    rw [checkAxis_ok.2 ⟨h1, rfl⟩]
    simp only [ok_bind]
    rw [if_neg (by simpa using h2)]
    have := erase_good hl (a := normAxis l.ndim axis) (p := 0) (normAxis_lt h1) (by omega)
      (by rw [h2]; simp)
    simp only [mul_zero, add_zero] at this
    exact this.accepted.new

theorem checkAxisInsert_ok {a : Int} {n k : Nat} :
    checkAxisInsert a n = .ok k ↔ AxisOk (n + 1) a ∧ k = normAxis (n + 1) a := by
  unfold checkAxisInsert AxisOk normAxis
  dsimp only
  split <;> split <;> simp_all <;> omega

theorem dimInsert_ok {l m : Layout} (hl : Good l) {axis : Int} :
    l.dimInsert axis = .ok m ↔ AxisOk (l.ndim + 1) axis ∧
      ∃ s, m = ⟨l.axes.insertIdx (normAxis (l.ndim + 1) axis) ⟨1, s⟩, l.offset⟩ ∧
      s = (if l.fPrefer then
        if normAxis (l.ndim + 1) axis = 0 then 1 else (l.axes.getD (normAxis (l.ndim + 1) axis - 1) default).str
        else if normAxis (l.ndim + 1) axis = l.ndim then 1
        else (l.axes.getD (normAxis (l.ndim + 1) axis) default).str) := by
  unfold Layout.dimInsert
  constructor
  · intro h
    obtain ⟨a, ha, h⟩ := bind_ok.1 h
    obtain ⟨h1, rfl⟩ := checkAxisInsert_ok.1 ha
    exact ⟨h1, _, (newAxes_ok.1 h).1, rfl⟩
  · rintro ⟨h1, s, rfl, rfl⟩
    rw [checkAxisInsert_ok.2 ⟨h1, rfl⟩]
    simp only [ok_bind]
    have ha : normAxis (l.ndim + 1) axis ≤ l.axes.length := by
      have := normAxis_lt h1; unfold Layout.ndim at this ⊢; omega
    exact (insert_good hl ha).accepted.new

end Rstsr
