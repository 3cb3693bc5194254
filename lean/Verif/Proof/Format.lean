import Verif.Model.Format
import Verif.Spec.Format
import Verif.Proof.Index
import Verif.Proof.Elementwise
/-!
# Lemmas on printing
-/
namespace Rstsr
open Spec

section
variable {α : Type}

/-- What happens after a call. -/
def PrintCfg.resume (c : PrintCfg α) (fuel : Nat) : Printed → Option (Res (List Char))
  | .done out => some (.ok out)
  | .again s => c.run fuel s

theorem run_step {c : PrintCfg α} {s : PrintSt} {r : Printed} (h : c.step s = .ok r) (n : Nat) : c.run (n + 1) s = c.resume n r := by
  unfold PrintCfg.run
  rw [h]
  cases r <;> rfl

/-- With enough calls, the state ends as the other one does. -/
def PrintCfg.Leads (c : PrintCfg α) (s : PrintSt) (r : Printed) : Prop := ∃ k, ∀ n, c.run (n + k) s = c.resume n r

theorem Leads.step {c : PrintCfg α} {s : PrintSt} {r : Printed} (h : c.step s = .ok r) : c.Leads s r := ⟨1, run_step h⟩

theorem Leads.trans {c : PrintCfg α} {s t : PrintSt} {r : Printed} (h : c.Leads s (.again t)) (h' : c.Leads t r) : c.Leads s r := by
  obtain ⟨k, h⟩ := h
  obtain ⟨k', h'⟩ := h'
  exact ⟨k' + k, fun n => by rw [← Nat.add_assoc, h]; exact h' n⟩

/-- After the part at `idx`, which lies `off` from the origin, has been written. -/
def PrintCfg.after (c : PrintCfg α) : List Nat → Int → List Char → List Char → Printed
  | [], _, out, _ => .done out
  | p :: tl, off, out, skip => .again (c.advance tl.length p tl (off - (p : Int) * c.str tl.length) out skip)

/-- Brackets and spaces before the part at `idx`. -/
def openText (idx : List Nat) : List Char :=
  List.replicate (idx.length - (idx.takeWhile (· == 0)).length) ' ' ++ List.replicate (idx.takeWhile (· == 0)).length '['

/-- How many indices are at their end. -/
def lasts (idx : List Nat) (B : List Axis) : Nat := ((idx.zip (B.map (·.dim))).takeWhile fun x => x.1 == x.2 - 1).length

/-- Brackets and new lines after the part at `idx`, which has `rank` axes. -/
def closeText (idx : List Nat) (B : List Axis) (rank : Nat) : List Char :=
  List.replicate (lasts idx B) ']' ++ if lasts idx B = idx.length then [] else if lasts idx B > 0 then ['\n', '\n'] else between rank

theorem lasts_cons (p : Nat) (tl : List Nat) (x : Axis) (B : List Axis) :
    lasts (p :: tl) (x :: B) = if p = x.dim - 1 then lasts tl B + 1 else 0 := by
  unfold lasts
  simp only [List.map_cons, List.zip_cons_cons, List.takeWhile_cons]
  split
  · rename_i h; rw [if_pos (by simpa using h)]; simp
  · rename_i h; rw [if_neg (by simpa using h)]; rfl

theorem lasts_le (idx : List Nat) (B : List Axis) (h : idx.length = B.length) : lasts idx B ≤ idx.length := by
  unfold lasts
  refine le_trans (List.takeWhile_prefix _).length_le ?_
  rw [List.length_zip, List.length_map, h, Nat.min_self]

theorem openText_zero (idx : List Nat) : openText (0 :: idx) = openText idx ++ ['['] := by
  unfold openText
  simp only [List.takeWhile_cons, beq_self_eq_true, if_true, List.length_cons, List.replicate_succ']
  rw [Nat.add_sub_add_right, List.append_assoc]

theorem openText_pos {p : Nat} (hp : p ≠ 0) (idx : List Nat) : openText (p :: idx) = List.replicate (idx.length + 1) ' ' := by
  unfold openText
  simp [hp]

theorem closeText_last {p : Nat} {x : Axis} (h : p = x.dim - 1) (idx : List Nat) (B : List Axis) (rank : Nat) (hr : rank ≠ 0) :
    closeText (p :: idx) (x :: B) rank = [']'] ++ closeText idx B (rank + 1) := by
  unfold closeText
  rw [lasts_cons, if_pos h]
  simp only [List.replicate_succ, List.cons_append, List.nil_append, List.length_cons, Nat.add_right_cancel_iff, gt_iff_lt, Nat.zero_lt_succ, if_true]
  congr 2
  split
  · rfl
  · have : between (rank + 1) = ['\n', '\n'] := by unfold between; rw [if_neg (by omega)]
    rw [this]; split <;> rfl

theorem closeText_not {p : Nat} {x : Axis} (h : p ≠ x.dim - 1) (idx : List Nat) (B : List Axis) (rank : Nat) :
    closeText (p :: idx) (x :: B) rank = between rank := by
  unfold closeText
  rw [lasts_cons, if_neg h]
  simp

theorem intercalate_cons {β : Type} (s x : List β) (xs : List (List β)) : s.intercalate (x :: xs) = x ++ xs.flatMap fun y => s ++ y := by
  induction xs generalizing x with
  | nil => simp
  | cons y ys ih => rw [List.intercalate_cons_cons, ih, List.flatMap_cons]; simp

/-! ## The elements of a line -/

theorem elem_ok {c : PrintCfg α} {off : Int} {x : α} (h0 : 0 ≤ off) (h : c.vec[off.toNat]? = some x) : c.elem off = .ok (c.fmtElem x) := by
  unfold PrintCfg.elem readAt
  rw [if_neg (by omega), h]
  rfl

theorem elems_ok {c : PrintCfg α} {off str : Int} {g : Nat → α} {is : List Nat}
    (h : ∀ i ∈ is, 0 ≤ off + (i : Int) * str ∧ c.vec[(off + (i : Int) * str).toNat]? = some (g i)) :
    c.elems off str is = .ok (is.flatMap fun i => ' ' :: c.fmtElem (g i)) := by
  have : (is.mapM fun (i : Nat) => do return ' ' :: (← c.elem (off + (i : Int) * str)) : Res _) = .ok (is.map fun i => ' ' :: c.fmtElem (g i)) := by
    induction is with
    | nil => rfl
    | cons i is ih =>
      rw [List.mapM_cons, elem_ok (h i (by simp)).1 (h i (by simp)).2, ih fun j hj => h j (by simp [hj])]
      rfl
  unfold PrintCfg.elems
  rw [this, List.flatMap_def]
  rfl

theorem printLine_ok {c : PrintCfg α} {off str : Int} {g : Nat → α} {n : Nat}
    (h : ∀ i < n, 0 ≤ off + (i : Int) * str ∧ c.vec[(off + (i : Int) * str).toNat]? = some (g i)) :
    ∃ row, c.line off n str = .ok row ∧ renderRow c.maxPrint c.minPrint n (fun i => c.fmtElem (g i)) = ['['] ++ row ++ [']'] := by
  unfold PrintCfg.line renderRow
  by_cases hn : n ≤ max c.maxPrint (2 * c.minPrint + 1)
  · rw [if_pos hn, elems_ok (g := g) fun i hi => h i (List.mem_range.1 hi)]
    refine ⟨_, rfl, ?_⟩
    simp [shownOf, hn, List.flatMap_map]
  · rw [if_neg hn, elems_ok (g := g) fun i hi => h i (by have := List.mem_range.1 hi; omega),
      elems_ok (g := g) fun i hi => h i (by have := List.mem_range'_1.1 hi; omega)]
    refine ⟨_, rfl, ?_⟩
    simp [shownOf, hn, List.flatMap_map, ellipsis]

/-! ## Parts -/

theorem cfg_at {c : PrintCfg α} {B R : List Axis} {x : Axis} (hA : c.layout.axes = B.reverse ++ x :: R) :
    c.dim B.length = x.dim ∧ c.str B.length = x.str := by
  unfold PrintCfg.dim PrintCfg.str
  rw [hA]
  simp [List.getD_eq_getElem?_getD, List.getElem?_append_right]

/-- The text that stands for the parts left out. -/
def skipText (d rank : Nat) : List Char := List.replicate d ' ' ++ ellipsis ++ between rank

/-- The elements of the part with axes `R` that lies `off` from the origin. -/
def PrintCfg.Holds (c : PrintCfg α) (R : List Axis) (off : Int) (g : List Nat → α) : Prop :=
  ∀ r, InRange r (R.map (·.dim)) → 0 ≤ off + dot r R ∧ c.vec[(off + dot r R).toNat]? = some (g r)

theorem Holds.at {c : PrintCfg α} {x : Axis} {R : List Axis} {off : Int} {g : List Nat → α} (h : c.Holds (x :: R) off g) {p : Nat} (hp : p < x.dim) :
    c.Holds R (off + (p : Int) * x.str) fun r => g (p :: r) := fun r hr => by
  have := h (p :: r) ⟨hp, hr⟩
  rwa [dot_cons, ← Int.add_assoc] at this

/-- The claim on the part at `idx` with axes `R`. -/
def PrintCfg.Writes (c : PrintCfg α) (R : List Axis) : Prop :=
  ∀ (B : List Axis) (idx : List Nat) (off : Int) (g : List Nat → α) (out : List Char), c.layout.axes = B.reverse ++ R → idx.length = B.length →
    (∀ p x, (p, x) ∈ idx.zip B → p < x.dim) → c.Holds R off g →
    c.Leads ⟨off, idx, out⟩ (c.after idx off
      (out ++ openText idx ++ render c.maxPrint c.minPrint idx.length (R.map (·.dim)) (fun r => c.fmtElem (g r)) ++ closeText idx B R.length)
      (skipText idx.length R.length))

theorem not_at_end {c : PrintCfg α} {B R : List Axis} {idx : List Nat} (hA : c.layout.axes = B.reverse ++ R) (hl : idx.length = B.length)
    (hr : ∀ p x, (p, x) ∈ idx.zip B → p < x.dim) : ¬(idx ≠ [] ∧ idx.head? = some (c.dim (idx.length - 1))) := by
  rintro ⟨h1, h2⟩
  match idx, B, hl with
  | p :: tl, x :: B, hl =>
    have hl : tl.length = B.length := by simpa using hl
    have := hr p x (by simp)
    have hx := (cfg_at (c := c) (B := B) (R := R) (x := x) (by rw [hA]; simp)).1
    simp only [List.head?_cons, Option.some.injEq, List.length_cons, Nat.add_sub_cancel] at h2
    rw [hl, hx] at h2
    omega

theorem writes_row (c : PrintCfg α) (x : Axis) (hx : x.dim ≠ 0) : c.Writes [x] := by
  intro B idx off g out hA hl hr hg
  have hnd : c.layout.ndim = idx.length + 1 := by
    unfold Layout.ndim; rw [hA, hl]; simp
  have hat := cfg_at hA
  obtain ⟨row, r1, r2⟩ := printLine_ok (c := c) (off := off) (str := x.str) (n := x.dim) (g := fun i => g [i]) fun i hi => by
    have := hg [i] ⟨hi, trivial⟩
    simpa [dot] using this
  apply Leads.step
  unfold PrintCfg.step
  simp only
  rw [if_neg (by omega), if_neg (not_at_end hA hl hr), if_neg (by omega), hnd, Nat.add_sub_cancel, hl, hat.1, hat.2, if_neg hx, r1, ok_bind]
  have hpre : c.prefix idx = openText idx ++ ['['] := by
    unfold PrintCfg.prefix openText
    split
    · rename_i h; subst h; rfl
    · have := (List.takeWhile_prefix (l := idx) (fun x => x == 0)).length_le
      simp only [hnd, Nat.add_comm 1, List.replicate_succ', Nat.add_sub_add_right, List.append_assoc]
  have hsuf : c.suffix idx = [']'] ++ closeText idx B 1 := by
    unfold PrintCfg.suffix closeText
    have : ((idx.zip ((c.layout.axes.take idx.length).map (·.dim)).reverse).takeWhile fun x => x.1 == x.2 - 1).length = lasts idx B := by
      rw [hA, hl, ← List.length_reverse (as := B), List.take_left, ← List.map_reverse, List.reverse_reverse]
      rfl
    rw [this, hnd]
    split
    · rename_i h
      subst h
      simp [lasts]
    · simp only [Nat.add_comm 1, List.replicate_succ, List.cons_append, List.nil_append]
      congr 2
      simp only [ne_eq, Nat.add_right_cancel_iff, ite_not, gt_iff_lt]
      split
      · rfl
      · unfold between
        by_cases h : 0 < lasts idx B
        · rw [if_pos (by omega), if_pos h]
        · rw [if_neg (by omega), if_neg h]; rfl
  have hout : out ++ c.prefix idx ++ row ++ c.suffix idx =
      out ++ openText idx ++ render c.maxPrint c.minPrint idx.length ([x].map (·.dim)) (fun r => c.fmtElem (g r)) ++ closeText idx B [x].length := by
    rw [hpre, hsuf]
    simp only [List.map_cons, List.map_nil, render, r2, List.length_singleton, List.append_assoc]
  rw [hout]
  match idx, B, hl with
  | [], [], _ => rfl
  | p :: tl, y :: B, hl =>
    have hl : tl.length = B.length := by simpa using hl
    simp only [PrintCfg.after, List.length_cons, Nat.add_sub_cancel, ← hl]
    simp [skipText, between, ellipsis, pure, Except.pure]

/-- One part of the axis `x`. -/
def partText (c : PrintCfg α) (d : Nat) (R : List Axis) (g : List Nat → α) (p : Nat) : List Char :=
  render c.maxPrint c.minPrint (d + 1) (R.map (·.dim)) fun r => c.fmtElem (g (p :: r))

/-- What stands between two parts of the axis `x`. -/
def gapText (d rank : Nat) : List Char := between rank ++ List.replicate (d + 1) ' '

section
variable {c : PrintCfg α} {x : Axis} {R B : List Axis} {idx : List Nat} {off : Int} {g : List Nat → α}

/-- One part of the axis `x` is written. -/
theorem part_ok (ih : c.Writes R) (hA : c.layout.axes = B.reverse ++ x :: R) (hl : idx.length = B.length)
    (hr : ∀ p x, (p, x) ∈ idx.zip B → p < x.dim) (hg : c.Holds (x :: R) off g) {p : Nat} (hp : p < x.dim) (out : List Char) :
    c.Leads ⟨off + (p : Int) * x.str, p :: idx, out⟩ (.again (c.advance idx.length p idx off
      (out ++ openText (p :: idx) ++ partText c idx.length R g p ++ closeText (p :: idx) (x :: B) R.length) (skipText (idx.length + 1) R.length))) := by
  have := ih (x :: B) (p :: idx) (off + (p : Int) * x.str) (fun r => g (p :: r)) out (by rw [hA]; simp) (by simp [hl])
    (fun q y h => by
      rw [List.zip_cons_cons, List.mem_cons] at h
      rcases h with h | h
      · cases h; exact hp
      · exact hr q y h) (Holds.at hg hp)
  rw [PrintCfg.after, hl, (cfg_at hA).2, ← hl] at this
  rw [show off + (p : Int) * x.str - (p : Int) * x.str = off by omega] at this
  exact this

/-- The last part of the axis has been written. -/
theorem end_ok (hA : c.layout.axes = B.reverse ++ x :: R) (hl : idx.length = B.length) (hx : x.dim ≠ 0) (hR : R ≠ []) (out : List Char) :
    c.Leads ⟨off + (x.dim : Int) * x.str, x.dim :: idx, out⟩ (c.after idx off out (skipText idx.length (R.length + 1))) := by
  apply Leads.step
  have hat := cfg_at hA
  have hR : 0 < R.length := List.length_pos_of_ne_nil hR
  unfold PrintCfg.step
  have hnd : c.layout.ndim ≠ 0 := by unfold Layout.ndim; rw [hA]; simp
  simp only
  rw [if_neg hnd, if_pos ⟨by simp, by simp [hl, hat.1]⟩, if_neg hx]
  match idx, B, hl with
  | [], [], _ => rfl
  | p :: tl, y :: B, hl =>
    have hl' : tl.length = B.length := by simpa using hl
    simp only [List.length_cons] at hat
    simp only [PrintCfg.after, List.length_cons, Nat.add_sub_cancel, hl', hat.2]
    rw [show B.length + 1 + 1 - 2 = B.length by omega, show off + (x.dim : Int) * x.str - (x.dim : Int) * x.str = off by omega]
    simp [skipText, between, ellipsis, pure, Except.pure]
    rw [if_neg (by omega)]

/-- All parts from `p` on are written. -/
theorem tail_ok (ih : c.Writes R) (hR : R ≠ []) (hA : c.layout.axes = B.reverse ++ x :: R) (hl : idx.length = B.length)
    (hr : ∀ p x, (p, x) ∈ idx.zip B → p < x.dim) (hg : c.Holds (x :: R) off g) (k : Nat) : ∀ {p : Nat} (_ : p + k + 1 = x.dim)
    (_ : x.dim < c.maxPrint ∨ x.dim < 2 * c.minPrint ∨ x.dim ≤ p + c.minPrint) (out : List Char),
    c.Leads ⟨off + (p : Int) * x.str, p :: idx, out⟩ (c.after idx off
      (out ++ openText (p :: idx) ++ partText c idx.length R g p ++ ((List.range' (p + 1) k).flatMap fun q => gapText idx.length R.length ++ partText c idx.length R g q) ++
        [']'] ++ closeText idx B (R.length + 1)) (skipText idx.length (R.length + 1))) := by
  have hR' : R.length ≠ 0 := by simpa using hR
  have hat := cfg_at hA
  induction k with
  | zero =>
    intro p hp hcond out
    refine Leads.trans (part_ok ih hA hl hr hg (show p < x.dim by omega) out) ?_
    have : c.dim idx.length < c.maxPrint ∨ c.dim idx.length ≤ p + c.minPrint ∨ p + 1 < c.minPrint := by
      rw [hl, hat.1]; omega
    unfold PrintCfg.advance
    rw [if_pos this, hl, hat.2, ← hl, show p + 1 = x.dim by omega, closeText_last (by omega) _ _ _ hR']
    have := end_ok (off := off) hA hl (by omega) hR (out ++ openText (p :: idx) ++ partText c idx.length R g p ++ ([']'] ++ closeText idx B (R.length + 1)))
    simpa using this
  | succ k ihk =>
    intro p hp hcond out
    refine Leads.trans (part_ok ih hA hl hr hg (show p < x.dim by omega) out) ?_
    have : c.dim idx.length < c.maxPrint ∨ c.dim idx.length ≤ p + c.minPrint ∨ p + 1 < c.minPrint := by
      rw [hl, hat.1]; omega
    unfold PrintCfg.advance
    rw [if_pos this, hl, hat.2, ← hl, closeText_not (by omega)]
    have := ihk (p := p + 1) (by omega) (by omega) (out ++ openText (p :: idx) ++ partText c idx.length R g p ++ between R.length)
    rw [openText_pos (p := p + 1) (by omega)] at this
    rw [List.range'_succ, List.flatMap_cons]
    simpa [gapText, List.append_assoc] using this

/-- The first few parts from `p` on are written, the text for those left out, and the last few. -/
theorem head_ok (ih : c.Writes R) (hR : R ≠ []) (hA : c.layout.axes = B.reverse ++ x :: R) (hl : idx.length = B.length)
    (hr : ∀ p x, (p, x) ∈ idx.zip B → p < x.dim) (hg : c.Holds (x :: R) off g) (h1 : c.maxPrint ≤ x.dim) (h2 : 2 * c.minPrint ≤ x.dim) (k : Nat) :
    ∀ {p : Nat} (_ : p + k + 1 = c.minPrint) (out : List Char),
    c.Leads ⟨off + (p : Int) * x.str, p :: idx, out⟩ (c.after idx off
      (out ++ openText (p :: idx) ++ partText c idx.length R g p ++ ((List.range' (p + 1) k).flatMap fun q => gapText idx.length R.length ++ partText c idx.length R g q) ++
        gapText idx.length R.length ++ ellipsis ++
        ((List.range' (x.dim - c.minPrint) c.minPrint).flatMap fun q => gapText idx.length R.length ++ partText c idx.length R g q) ++
        [']'] ++ closeText idx B (R.length + 1)) (skipText idx.length (R.length + 1))) := by
  have hat := cfg_at hA
  induction k with
  | zero =>
    intro p hp out
    refine Leads.trans (part_ok ih hA hl hr hg (show p < x.dim by omega) out) ?_
    have : ¬(c.dim idx.length < c.maxPrint ∨ c.dim idx.length ≤ p + c.minPrint ∨ p + 1 < c.minPrint) := by
      rw [hl, hat.1]; omega
    unfold PrintCfg.advance
    rw [if_neg this, hl, hat.1, hat.2, ← hl, closeText_not (by omega)]
    have := tail_ok ih hR hA hl hr hg (c.minPrint - 1) (p := x.dim - c.minPrint) (by omega) (by omega)
      (out ++ openText (p :: idx) ++ partText c idx.length R g p ++ between R.length ++ skipText (idx.length + 1) R.length)
    rw [openText_pos (p := x.dim - c.minPrint) (by omega)] at this
    obtain ⟨m, hm⟩ : ∃ m, c.minPrint = m + 1 := ⟨p, by omega⟩
    rw [show List.range' (x.dim - c.minPrint) c.minPrint = (x.dim - c.minPrint) :: List.range' (x.dim - c.minPrint + 1) (c.minPrint - 1) by
      rw [hm, List.range'_succ]; rfl, List.flatMap_cons]
    simpa [gapText, skipText, List.append_assoc] using this
  | succ k ihk =>
    intro p hp out
    refine Leads.trans (part_ok ih hA hl hr hg (show p < x.dim by omega) out) ?_
    have : c.dim idx.length < c.maxPrint ∨ c.dim idx.length ≤ p + c.minPrint ∨ p + 1 < c.minPrint := by
      rw [hl, hat.1]; omega
    unfold PrintCfg.advance
    rw [if_pos this, hl, hat.2, ← hl, closeText_not (by omega)]
    have := ihk (p := p + 1) (by omega) (out ++ openText (p :: idx) ++ partText c idx.length R g p ++ between R.length)
    rw [openText_pos (p := p + 1) (by omega)] at this
    rw [List.range'_succ, List.flatMap_cons]
    simpa [gapText, List.append_assoc] using this

theorem render_cons (d : Nat) (hR : R ≠ []) (hx : x.dim ≠ 0) (hm : c.minPrint ≠ 0) (g : List Nat → α) :
    render c.maxPrint c.minPrint d ((x :: R).map (·.dim)) (fun r => c.fmtElem (g r)) =
      if x.dim < c.maxPrint ∨ x.dim < 2 * c.minPrint then
        ['['] ++ partText c d R g 0 ++ ((List.range' 1 (x.dim - 1)).flatMap fun q => gapText d R.length ++ partText c d R g q) ++ [']']
      else
        ['['] ++ partText c d R g 0 ++ ((List.range' 1 (c.minPrint - 1)).flatMap fun q => gapText d R.length ++ partText c d R g q) ++
          gapText d R.length ++ ellipsis ++
          ((List.range' (x.dim - c.minPrint) c.minPrint).flatMap fun q => gapText d R.length ++ partText c d R g q) ++ [']'] := by
  have hrange : ∀ k, k ≠ 0 → List.range k = 0 :: List.range' 1 (k - 1) := fun k hk => by
    obtain ⟨m, rfl⟩ := Nat.exists_eq_succ_of_ne_zero hk
    rw [List.range_eq_range', List.range'_succ]; rfl
  match R, hR with
  | y :: R, _ =>
    simp only [List.map_cons, render, List.length_map]
    by_cases h : x.dim < c.maxPrint ∨ x.dim < 2 * c.minPrint
    · rw [if_pos h, decide_eq_true h, shownOf, if_pos rfl, hrange _ hx, List.map_cons, List.map_cons, intercalate_cons]
      simp only [List.flatMap_map, Option.map_some, Option.getD_some, partText, gapText, List.map_cons, List.length_cons, List.append_assoc]
    · rw [if_neg h, decide_eq_false h, shownOf, if_neg (by simp), hrange _ hm, List.map_cons, List.cons_append (a := some 0), List.map_cons, intercalate_cons]
      simp only [List.flatMap_map, List.flatMap_append, List.flatMap_cons, List.map_append, List.map_map, Option.map_some, Option.getD_some, Option.map_none,
        Option.getD_none, partText, gapText, List.map_cons, List.length_cons, List.append_assoc]
      rfl

end

theorem writes_cons {c : PrintCfg α} {x : Axis} {R : List Axis} (ih : c.Writes R) (hR : R ≠ []) (hx : x.dim ≠ 0) (hm : c.minPrint ≠ 0) : c.Writes (x :: R) := by
  intro B idx off g out hA hl hr hg
  have hlen : R.length ≠ 0 := by simpa using hR
  have hnd : c.layout.ndim = idx.length + R.length + 1 := by
    unfold Layout.ndim; rw [hA, hl]; simp; omega
  have hstep : c.Leads ⟨off, idx, out⟩ (.again ⟨off + ((0 : Nat) : Int) * x.str, 0 :: idx, out⟩) := by
    apply Leads.step
    unfold PrintCfg.step
    simp only
    rw [if_neg (by omega), if_neg (not_at_end hA hl hr), if_pos (by omega)]
    simp [pure, Except.pure]
  refine Leads.trans hstep ?_
  rw [render_cons idx.length hR hx hm g]
  by_cases h : x.dim < c.maxPrint ∨ x.dim < 2 * c.minPrint
  · have := tail_ok ih hR hA hl hr hg (x.dim - 1) (p := 0) (by omega) (by omega) out
    rw [openText_zero] at this
    rw [if_pos h]
    simpa [List.append_assoc] using this
  · have := head_ok ih hR hA hl hr hg (by omega) (by omega) (c.minPrint - 1) (p := 0) (by omega) out
    rw [openText_zero] at this
    rw [if_neg h]
    simpa [List.append_assoc] using this

theorem writes_all {c : PrintCfg α} (hm : c.minPrint ≠ 0) {R : List Axis} (hR : R ≠ []) (h0 : ∀ x ∈ R, x.dim ≠ 0) : c.Writes R := by
  induction R with
  | nil => exact absurd rfl hR
  | cons x R ih =>
    by_cases h : R = []
    · subst h; exact writes_row c x (h0 x (by simp))
    · exact writes_cons (ih h fun y hy => h0 y (by simp [hy])) h (h0 x (by simp)) hm

end
end Rstsr
