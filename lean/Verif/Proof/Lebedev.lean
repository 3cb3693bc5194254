import Verif.Model.Lebedev
import Verif.Proof.LebedevCheck
import Mathlib.Tactic.Ring
import Mathlib.Tactic.FieldSimp
import Mathlib.Tactic.Linarith
import Mathlib.Tactic.NormNum
import Mathlib.Algebra.BigOperators.Group.Finset.Basic
import Mathlib.Data.Nat.Choose.Sum

/-!
# Lebedev quadrature: sums over the points of a table
-/

namespace Rstsr

/-- The weighted sum over points given one after another. -/
def wsum (f : ℝ → ℝ → ℝ → ℝ) : List ℝ → List ℝ → ℝ
  | x :: y :: z :: q, w :: ws => w * f x y z + wsum f q ws
  | _, _ => 0

theorem wsum_append (f : ℝ → ℝ → ℝ → ℝ) (w w' : List ℝ) :
    ∀ q q' : List ℝ, q.length = 3 * w.length → wsum f (q ++ q') (w ++ w') = wsum f q w + wsum f q' w' := by
  induction w with
  | nil =>
    intro q q' h
    have : q = [] := List.eq_nil_of_length_eq_zero (by simpa using h)
    subst this
    simp [wsum]
  | cons a w ih =>
    intro q q' h
    match q, h with
    | x :: y :: z :: q, h =>
      simp only [List.cons_append, wsum]
      rw [ih q q' (by simp at h; omega)]
      ring
    | [], h => simp at h
    | [_], h => simp at h; omega
    | [_, _], h => simp at h; omega

/-- The points of one row of the table. -/
noncomputable def rowPts (o : OrbitRow) : List ℝ :=
  match o.code with
  | 0 => orbit0
  | 1 => orbit1
  | 2 => orbit2
  | 3 => orbit3 o.a.val
  | 4 => orbit4 o.a.val
  | _ => orbit5 o.a.val o.b.val

noncomputable def rowWts (o : OrbitRow) : List ℝ := List.replicate (codeLen o.code) o.v.val

noncomputable def allPts (rows : List OrbitRow) : List ℝ := rows.flatMap rowPts
noncomputable def allWts (rows : List OrbitRow) : List ℝ := rows.flatMap rowWts

theorem rowPts_length (o : OrbitRow) : (rowPts o).length = 3 * codeLen o.code := by
  obtain ⟨c, a, b, v⟩ := o
  rcases c with _ | _ | _ | _ | _ | _ | n <;> simp [rowPts, codeLen, orbit0, orbit1, orbit2, orbit3, orbit4, orbit5]

theorem allWts_length (rows : List OrbitRow) : (allWts rows).length = countPts rows := by
  induction rows with
  | nil => rfl
  | cons o rest ih => simp only [allWts, List.flatMap_cons, List.length_append, countPts, rowWts, List.length_replicate] at *
                      rw [ih]; rfl

theorem allPts_length (rows : List OrbitRow) : (allPts rows).length = 3 * countPts rows := by
  induction rows with
  | nil => rfl
  | cons o rest ih =>
    simp only [allPts, List.flatMap_cons, List.length_append, countPts] at *
    rw [ih, rowPts_length]
    simp only [Nat.add_eq]; ring

theorem wsum_rows (f : ℝ → ℝ → ℝ → ℝ) (rows : List OrbitRow) :
    wsum f (allPts rows) (allWts rows) = (rows.map fun o => wsum f (rowPts o) (rowWts o)).sum := by
  induction rows with
  | nil => simp [allPts, allWts, wsum]
  | cons o rest ih =>
    simp only [allPts, allWts, List.flatMap_cons, List.map_cons, List.sum_cons] at *
    rw [wsum_append _ _ _ _ _ (by rw [rowPts_length]; simp [rowWts]), ih]

/-! ## One orbit -/

section
variable (F G H : ℝ → ℝ)

/-- The sum over the six orders. -/
def sym3 (x y z : ℝ) : ℝ :=
  F x * G y * H z + F x * G z * H y + F y * G x * H z + F y * G z * H x + F z * G x * H y + F z * G y * H x

theorem orbit0_even (v : ℝ) (hF : ∀ x, F (-x) = F x) (hG : ∀ x, G (-x) = G x) (hH : ∀ x, H (-x) = H x) :
    wsum (fun x y z => F x * G y * H z) orbit0 (List.replicate 6 v) = 1 * v * sym3 F G H 1 0 0 := by
  simp only [orbit0, wsum, List.replicate, hF, hG, hH, sym3]; ring

theorem orbit1_even (v : ℝ) (hF : ∀ x, F (-x) = F x) (hG : ∀ x, G (-x) = G x) (hH : ∀ x, H (-x) = H x) :
    wsum (fun x y z => F x * G y * H z) orbit1 (List.replicate 12 v) =
      2 * v * sym3 F G H (Real.sqrt (1 / 2)) (Real.sqrt (1 / 2)) 0 := by
  simp only [orbit1, wsum, List.replicate, hF, hG, hH, sym3]; ring

theorem orbit2_even (v : ℝ) (hF : ∀ x, F (-x) = F x) (hG : ∀ x, G (-x) = G x) (hH : ∀ x, H (-x) = H x) :
    wsum (fun x y z => F x * G y * H z) orbit2 (List.replicate 8 v) =
      (8 / 6) * v * sym3 F G H (Real.sqrt (1 / 3)) (Real.sqrt (1 / 3)) (Real.sqrt (1 / 3)) := by
  simp only [orbit2, wsum, List.replicate, hF, hG, hH, sym3]; ring

theorem orbit3_even (a v : ℝ) (hF : ∀ x, F (-x) = F x) (hG : ∀ x, G (-x) = G x) (hH : ∀ x, H (-x) = H x) :
    wsum (fun x y z => F x * G y * H z) (orbit3 a) (List.replicate 24 v) =
      4 * v * sym3 F G H a a (Real.sqrt (1 - 2 * a * a)) := by
  simp only [orbit3, wsum, List.replicate, hF, hG, hH, sym3]; ring

theorem orbit4_even (a v : ℝ) (hF : ∀ x, F (-x) = F x) (hG : ∀ x, G (-x) = G x) (hH : ∀ x, H (-x) = H x) :
    wsum (fun x y z => F x * G y * H z) (orbit4 a) (List.replicate 24 v) =
      4 * v * sym3 F G H a (Real.sqrt (1 - a * a)) 0 := by
  simp only [orbit4, wsum, List.replicate, hF, hG, hH, sym3]; ring

theorem orbit5_even (a b v : ℝ) (hF : ∀ x, F (-x) = F x) (hG : ∀ x, G (-x) = G x) (hH : ∀ x, H (-x) = H x) :
    wsum (fun x y z => F x * G y * H z) (orbit5 a b) (List.replicate 48 v) =
      8 * v * sym3 F G H a b (Real.sqrt (1 - a * a - b * b)) := by
  simp only [orbit5, wsum, List.replicate, hF, hG, hH, sym3]; ring

end

/-! ## Symmetry: exchanging two coordinates or changing the sign of one -/

/-- A weighted sum does not change when each function is composed with an
exchange of the first two or the last two coordinates or a change of sign of the first. -/
def SymSum (q w : List ℝ) : Prop :=
  ∀ f : ℝ → ℝ → ℝ → ℝ, wsum (fun x y z => f y x z) q w = wsum f q w ∧
    wsum (fun x y z => f x z y) q w = wsum f q w ∧ wsum (fun x y z => f (-x) y z) q w = wsum f q w

theorem symSum_row (o : OrbitRow) : SymSum (rowPts o) (rowWts o) := by
  intro f
  obtain ⟨c, a, b, v⟩ := o
  rcases c with _ | _ | _ | _ | _ | _ | n <;> refine ⟨?_, ?_, ?_⟩ <;>
    simp only [rowPts, rowWts, codeLen, orbit0, orbit1, orbit2, orbit3, orbit4, orbit5, wsum, List.replicate, neg_neg,
      neg_zero, Nat.zero_add, Nat.reduceAdd] <;> ring

theorem symSum_all (rows : List OrbitRow) : SymSum (allPts rows) (allWts rows) := by
  intro f
  simp only [wsum_rows]
  refine ⟨?_, ?_, ?_⟩
  · congr 1; exact List.map_congr_left fun o _ => (symSum_row o f).1
  · congr 1; exact List.map_congr_left fun o _ => (symSum_row o f).2.1
  · congr 1; exact List.map_congr_left fun o _ => (symSum_row o f).2.2

theorem wsum_smul (c : ℝ) (f : ℝ → ℝ → ℝ → ℝ) : ∀ q w : List ℝ, wsum (fun x y z => c * f x y z) q w = c * wsum f q w := by
  intro q w
  induction w generalizing q with
  | nil => unfold wsum; simp
  | cons a w ih =>
    match q with
    | x :: y :: z :: q => simp only [wsum]; rw [ih]; ring
    | [] => simp [wsum]
    | [_] => simp [wsum]
    | [_, _] => simp [wsum]

theorem wsum_add (f g : ℝ → ℝ → ℝ → ℝ) : ∀ q w : List ℝ,
    wsum (fun x y z => f x y z + g x y z) q w = wsum f q w + wsum g q w := by
  intro q w
  induction w generalizing q with
  | nil => unfold wsum; simp
  | cons a w ih =>
    match q with
    | x :: y :: z :: q => simp only [wsum]; rw [ih]; ring
    | [] => simp [wsum]
    | [_] => simp [wsum]
    | [_, _] => simp [wsum]

/-- A monomial with an odd exponent sums to nothing. -/
theorem wsum_odd (q w : List ℝ) (h : SymSum q w) (i j k : Nat) (ho : i % 2 = 1 ∨ j % 2 = 1 ∨ k % 2 = 1) :
    wsum (fun x y z => x ^ i * y ^ j * z ^ k) q w = 0 := by
  have first : ∀ i j k : Nat, i % 2 = 1 → wsum (fun x y z => x ^ i * y ^ j * z ^ k) q w = 0 := by
    intro i j k hi
    have h3 := (h fun x y z => x ^ i * y ^ j * z ^ k).2.2
    have e : (fun x y z : ℝ => (-x) ^ i * y ^ j * z ^ k) = fun x y z => (-1) * (x ^ i * y ^ j * z ^ k) := by
      funext x y z
      rw [Odd.neg_pow (Nat.odd_iff.2 hi)]; ring
    rw [e, wsum_smul] at h3
    linarith
  have second : ∀ i j k : Nat, j % 2 = 1 → wsum (fun x y z => x ^ i * y ^ j * z ^ k) q w = 0 := by
    intro i j k hj
    rw [← (h fun x y z => x ^ i * y ^ j * z ^ k).1]
    have e : (fun x y z : ℝ => y ^ i * x ^ j * z ^ k) = fun x y z => x ^ j * y ^ i * z ^ k := by
      funext x y z; ring
    rw [e]; exact first _ _ _ hj
  rcases ho with ho | ho | ho
  · exact first _ _ _ ho
  · exact second _ _ _ ho
  · rw [← (h fun x y z => x ^ i * y ^ j * z ^ k).2.1]
    have e : (fun x y z : ℝ => x ^ i * z ^ j * y ^ k) = fun x y z => x ^ i * y ^ k * z ^ j := by
      funext x y z; ring
    rw [e]; exact second _ _ _ ho

/-! ## Squares -/

theorem Dec.units_val (d : Dec) (he : d.exp ≤ 22) (hm : 0 ≤ d.mant) : (d.units : ℝ) = d.val * 10 ^ 22 := by
  have h1 : ((d.mant.toNat : Nat) : ℝ) = (d.mant : ℝ) := by
    have : ((d.mant.toNat : Nat) : Int) = d.mant := Int.toNat_of_nonneg hm
    exact_mod_cast congrArg (Int.cast : Int → ℝ) this
  have h2 : (10 : ℝ) ^ (22 - d.exp) * 10 ^ d.exp = 10 ^ 22 := by rw [← pow_add]; congr 1; omega
  unfold Dec.units Dec.val
  simp only [Nat.mul_eq, Nat.pow_eq, Nat.sub_eq, Nat.cast_mul, Nat.cast_pow, Nat.cast_ofNat]
  rw [h1, ← h2]
  field_simp

theorem Dec.units_sub (d : Dec) (he : d.exp ≤ 22) : (d.units : ℝ) - d.negUnits = d.val * 10 ^ 22 := by
  have h1 : ((d.mant.toNat : Nat) : ℝ) - (((-d.mant).toNat : Nat) : ℝ) = (d.mant : ℝ) := by
    have : ((d.mant.toNat : Nat) : Int) - (((-d.mant).toNat : Nat) : Int) = d.mant := by omega
    exact_mod_cast congrArg (Int.cast : Int → ℝ) this
  have h2 : (10 : ℝ) ^ (22 - d.exp) * 10 ^ d.exp = 10 ^ 22 := by rw [← pow_add]; congr 1; omega
  unfold Dec.units Dec.negUnits Dec.val
  simp only [Nat.mul_eq, Nat.pow_eq, Nat.sub_eq, Nat.cast_mul, Nat.cast_pow, Nat.cast_ofNat]
  rw [← sub_mul, h1, ← h2]
  field_simp

theorem Dec.sq_val (d : Dec) (he : d.exp ≤ 22) (hm : 0 ≤ d.mant) : (d.sq : ℝ) = d.val * d.val * 10 ^ 44 := by
  unfold Dec.sq
  simp only [Nat.mul_eq, Nat.cast_mul]
  rw [d.units_val he hm]; ring

theorem one44_val : (one44 : ℝ) = 10 ^ 44 := by unfold one44; norm_num

/-- The three squares of the first point of a row. -/
noncomputable def sq3 (o : OrbitRow) : ℝ × ℝ × ℝ :=
  let a := o.a.val
  let b := o.b.val
  match o.code with
  | 0 => (1, 0, 0)
  | 1 => (1 / 2, 1 / 2, 0)
  | 2 => (1 / 3, 1 / 3, 1 / 3)
  | 3 => (a * a, a * a, 1 - 2 * a * a)
  | 4 => (a * a, 1 - a * a, 0)
  | _ => (a * a, b * b, 1 - a * a - b * b)

theorem sq3_sum (o : OrbitRow) : (sq3 o).1 + (sq3 o).2.1 + (sq3 o).2.2 = 1 := by
  unfold sq3
  split <;> simp only <;> ring

structure RowOk (o : OrbitRow) : Prop where
  a : o.a.exp ≤ 22
  b : o.b.exp ≤ 22
  v : o.v.exp ≤ 22
  a0 : 0 ≤ o.a.mant
  b0 : 0 ≤ o.b.mant
  code : o.code ≤ 5
  c3 : o.code = 3 → 2 * o.a.sq ≤ one44
  c4 : o.code = 4 → o.a.sq ≤ one44
  c5 : o.code = 5 → o.a.sq + o.b.sq ≤ one44

theorem rowOk_spec {o : OrbitRow} (h : rowOk o = true) : RowOk o := by
  unfold rowOk at h
  simp only [Bool.and_eq_true, Nat.ble_eq, decide_eq_true_eq] at h
  obtain ⟨⟨⟨⟨⟨h1, h2⟩, h3⟩, h4⟩, h5⟩, h6⟩ := h
  refine ⟨h1, h2, h3, h4, h5, ?_, ?_, ?_, ?_⟩
  · split at h6 <;> first | omega | simp at h6
  · intro hc; rw [hc] at h6; simpa using h6
  · intro hc; rw [hc] at h6; simpa using h6
  · intro hc; rw [hc] at h6; simpa using h6

theorem RowOk.radicand3 {o : OrbitRow} (h : RowOk o) (hc : o.code = 3) : 0 ≤ 1 - 2 * o.a.val * o.a.val := by
  have := h.c3 hc
  have : (2 : ℝ) * o.a.sq ≤ one44 := by exact_mod_cast this
  rw [o.a.sq_val h.a h.a0, one44_val] at this
  have : (2 * (o.a.val * o.a.val)) * 10 ^ 44 ≤ 1 * (10 : ℝ) ^ 44 := by linarith
  have := le_of_mul_le_mul_right this (by positivity)
  linarith

theorem RowOk.radicand4 {o : OrbitRow} (h : RowOk o) (hc : o.code = 4) : 0 ≤ 1 - o.a.val * o.a.val := by
  have := h.c4 hc
  have : (o.a.sq : ℝ) ≤ one44 := by exact_mod_cast this
  rw [o.a.sq_val h.a h.a0, one44_val] at this
  have : (o.a.val * o.a.val) * 10 ^ 44 ≤ 1 * (10 : ℝ) ^ 44 := by linarith
  have := le_of_mul_le_mul_right this (by positivity)
  linarith

theorem RowOk.radicand5 {o : OrbitRow} (h : RowOk o) (hc : o.code = 5) : 0 ≤ 1 - o.a.val * o.a.val - o.b.val * o.b.val := by
  have := h.c5 hc
  have : (o.a.sq : ℝ) + o.b.sq ≤ one44 := by exact_mod_cast this
  rw [o.a.sq_val h.a h.a0, o.b.sq_val h.b h.b0, one44_val] at this
  have : (o.a.val * o.a.val + o.b.val * o.b.val) * 10 ^ 44 ≤ 1 * (10 : ℝ) ^ 44 := by linarith
  have := le_of_mul_le_mul_right this (by positivity)
  linarith

/-- Six orders of `p^i q^j r^k`. -/
def sixOrders (p q r : ℝ) (i j k : Nat) : ℝ := sym3 (· ^ i) (· ^ j) (· ^ k) p q r

theorem wsum_row_even (o : OrbitRow) (h : RowOk o) (i j k : Nat) :
    wsum (fun x y z => x ^ (2 * i) * y ^ (2 * j) * z ^ (2 * k)) (rowPts o) (rowWts o) =
      (codeLen o.code / 6) * o.v.val * sixOrders (sq3 o).1 (sq3 o).2.1 (sq3 o).2.2 i j k := by
  have ev : ∀ (n : Nat) (x : ℝ), (-x) ^ (2 * n) = x ^ (2 * n) := fun n x => (even_two_mul n).neg_pow x
  have s2 : Real.sqrt (1 / 2) ^ 2 = 1 / 2 := Real.sq_sqrt (by norm_num)
  have s3 : Real.sqrt (1 / 3) ^ 2 = 1 / 3 := Real.sq_sqrt (by norm_num)
  unfold rowPts rowWts sq3 sixOrders
  have hc := h.code
  match e : o.code, hc with
  | 0, _ =>
    simp only [codeLen]
    rw [orbit0_even (· ^ (2 * i)) (· ^ (2 * j)) (· ^ (2 * k)) _ (ev i) (ev j) (ev k)]
    simp only [sym3, pow_mul]; norm_num
  | 1, _ =>
    simp only [codeLen]
    rw [orbit1_even (· ^ (2 * i)) (· ^ (2 * j)) (· ^ (2 * k)) _ (ev i) (ev j) (ev k)]
    simp only [sym3, pow_mul, s2]; norm_num
  | 2, _ =>
    simp only [codeLen]
    rw [orbit2_even (· ^ (2 * i)) (· ^ (2 * j)) (· ^ (2 * k)) _ (ev i) (ev j) (ev k)]
    simp only [sym3, pow_mul, s3]; norm_num
  | 3, _ =>
    simp only [codeLen]
    rw [orbit3_even (· ^ (2 * i)) (· ^ (2 * j)) (· ^ (2 * k)) _ _ (ev i) (ev j) (ev k)]
    simp only [sym3, pow_mul, Real.sq_sqrt (h.radicand3 e), sq o.a.val]; norm_num
  | 4, _ =>
    simp only [codeLen]
    rw [orbit4_even (· ^ (2 * i)) (· ^ (2 * j)) (· ^ (2 * k)) _ _ (ev i) (ev j) (ev k)]
    simp only [sym3, pow_mul, Real.sq_sqrt (h.radicand4 e), sq o.a.val]; norm_num
  | 5, _ =>
    simp only [codeLen]
    rw [orbit5_even (· ^ (2 * i)) (· ^ (2 * j)) (· ^ (2 * k)) _ _ _ (ev i) (ev j) (ev k)]
    simp only [sym3, pow_mul, Real.sq_sqrt (h.radicand5 e), sq o.a.val, sq o.b.val]; norm_num

theorem sqRow_sq (o : OrbitRow) (h : RowOk o) :
    ((sqRow o).p : ℝ) = (sq3 o).1 * (6 * 10 ^ 44) ∧ ((sqRow o).q : ℝ) = (sq3 o).2.1 * (6 * 10 ^ 44) ∧
      ((sqRow o).r : ℝ) = (sq3 o).2.2 * (6 * 10 ^ 44) ∧
      ((sqRow o).wp : ℝ) - (sqRow o).wn = codeLen o.code * o.v.val * 10 ^ 22 := by
  have ha := o.a.sq_val h.a h.a0
  have hb := o.b.sq_val h.b h.b0
  have hv := o.v.units_sub h.v
  have h1 := one44_val
  unfold sqRow sq3
  have hc := h.code
  match e : o.code, hc with
  | 0, _ =>
    simp only [codeLen, Nat.mul_eq]; push_cast [h1]
    refine ⟨by ring, by ring, by ring, ?_⟩
    rw [mul_assoc, ← hv]; ring
  | 1, _ =>
    simp only [codeLen, Nat.mul_eq]; push_cast [h1]
    refine ⟨by ring, by ring, by ring, ?_⟩
    rw [mul_assoc, ← hv]; ring
  | 2, _ =>
    simp only [codeLen, Nat.mul_eq]; push_cast [h1]
    refine ⟨by ring, by ring, by ring, ?_⟩
    rw [mul_assoc, ← hv]; ring
  | 3, _ =>
    have := h.c3 e
    simp only [codeLen, Nat.mul_eq, Nat.sub_eq]; push_cast [Nat.cast_sub this, h1, ha]
    refine ⟨by ring, by ring, by ring, ?_⟩
    rw [mul_assoc, ← hv]; ring
  | 4, _ =>
    have := h.c4 e
    simp only [codeLen, Nat.mul_eq, Nat.sub_eq]; push_cast [Nat.cast_sub this, h1, ha]
    refine ⟨by ring, by ring, by ring, ?_⟩
    rw [mul_assoc, ← hv]; ring
  | 5, _ =>
    have := h.c5 e
    simp only [codeLen, Nat.mul_eq, Nat.sub_eq, Nat.add_eq]; push_cast [Nat.cast_sub this, h1, ha, hb]
    refine ⟨by ring, by ring, by ring, ?_⟩
    rw [mul_assoc, ← hv]; ring

end Rstsr
