import Verif.Proof.Lebedev
import Verif.Proof.Sphere

/-!
# Lebedev quadrature: what the check of a table proves
-/

namespace Rstsr

theorem symSum_val (p q r E : ℝ) (P Q R : Nat) (hp : (P : ℝ) = p * E) (hq : (Q : ℝ) = q * E) (hr : (R : ℝ) = r * E)
    (i j k : Nat) : (symSum P Q R i j k : ℝ) = sixOrders p q r i (i + j) (i + k) * E ^ (i + (i + j) + (i + k)) := by
  unfold symSum sixOrders sym3
  simp only [Nat.mul_eq, Nat.add_eq, Nat.pow_eq]
  push_cast
  rw [hp, hq, hr]
  simp only [mul_pow, pow_add]
  ring

theorem topSum_val (rows : List OrbitRow) (h : ∀ o ∈ rows, RowOk o) (i j k : Nat) :
    (topSum SqRow.wp i j k (rows.map sqRow) : ℝ) - topSum SqRow.wn i j k (rows.map sqRow) =
      wsum (fun x y z => x ^ (2 * i) * y ^ (2 * (i + j)) * z ^ (2 * (i + k))) (allPts rows) (allWts rows) *
        (6 * 10 ^ 22 * (6 * 10 ^ 44) ^ (i + (i + j) + (i + k))) := by
  rw [wsum_rows]
  induction rows with
  | nil => simp [topSum]
  | cons o rest ih =>
    have ih := ih fun o ho => h o (List.mem_cons_of_mem _ ho)
    have ho := h o List.mem_cons_self
    obtain ⟨hp, hq, hr, hw⟩ := sqRow_sq o ho
    have hs := symSum_val _ _ _ _ _ _ _ hp hq hr i j k
    simp only [List.map_cons, topSum, List.sum_cons, Nat.add_eq, Nat.mul_eq]
    push_cast
    rw [add_mul, ← ih, hs, wsum_row_even o ho]
    have : ((sqRow o).wp : ℝ) = codeLen o.code * o.v.val * 10 ^ 22 + (sqRow o).wn := by linarith
    rw [this]
    ring

theorem close_spec {x x' y : Nat} (h : closeTo x x' y = true) : |(x : ℝ) - x' - y| ≤ 4 / 10 ^ 15 * y := by
  unfold closeTo at h
  simp only [Bool.and_eq_true, Nat.ble_eq, Nat.mul_eq, Nat.add_eq] at h
  obtain ⟨h1, h2⟩ := h
  have h1' : (1000000000000000 : ℝ) * x ≤ 1000000000000000 * x' + 1000000000000004 * y := by exact_mod_cast h1
  have h2' : (1000000000000000 : ℝ) * x' + 999999999999996 * y ≤ 1000000000000000 * x := by exact_mod_cast h2
  rw [abs_le]
  constructor <;> linarith

/-- The even mean. -/
noncomputable def evenMean (i j k : Nat) : ℝ := (oddFact i * oddFact j * oddFact k : ℝ) / oddFact (i + j + k + 1)

theorem evenMean_pos (i j k : Nat) : 0 < evenMean i j k := by
  have := oddFact_pos
  have h : ∀ n, (0 : ℝ) < oddFact n := fun n => by exact_mod_cast this n
  have := h i; have := h j; have := h k; have := h (i + j + k + 1)
  unfold evenMean; positivity

/-- On the sphere the squares sum to one, so a mean splits. -/
theorem evenMean_split (i j k : Nat) :
    evenMean i j k = evenMean (i + 1) j k + evenMean i (j + 1) k + evenMean i j (k + 1) := by
  have h : ∀ n, (0 : ℝ) < oddFact n := fun n => by exact_mod_cast oddFact_pos n
  have h1 := h (i + j + k + 1)
  unfold evenMean
  rw [show i + 1 + j + k + 1 = (i + j + k + 1) + 1 by ring, show i + (j + 1) + k + 1 = (i + j + k + 1) + 1 by ring,
    show i + j + (k + 1) + 1 = (i + j + k + 1) + 1 by ring]
  simp only [oddFact_succ (i + j + k + 1), oddFact_succ i, oddFact_succ j, oddFact_succ k]
  push_cast
  have h2 : (0 : ℝ) < 2 * (i + j + k + 1) + 1 := by positivity
  field_simp
  ring

/-- `|Q - M| ≤ 4e-15 M` for an even monomial. -/
def EvenGood (q w : List ℝ) (i j k : Nat) : Prop :=
  |wsum (fun x y z => x ^ (2 * i) * y ^ (2 * j) * z ^ (2 * k)) q w - evenMean i j k| ≤ 4 / 10 ^ 15 * evenMean i j k

theorem checkOne_spec (rows : List OrbitRow) (h : ∀ o ∈ rows, RowOk o) (i j k : Nat) (hij : i ≤ j) (hik : i ≤ k)
    (hc : checkOne (rows.map sqRow) (i + j + k) i j k = true) : EvenGood (allPts rows) (allWts rows) i j k := by
  have h1 := close_spec hc
  obtain ⟨j, rfl⟩ := Nat.exists_eq_add_of_le hij
  obtain ⟨k, rfl⟩ := Nat.exists_eq_add_of_le hik
  have ht := topSum_val rows h i j k
  simp only [Nat.sub_eq, Nat.add_sub_cancel_left, Nat.mul_eq, Nat.succ_eq_add_one, Nat.pow_eq] at h1
  push_cast [one44_val] at h1
  rw [← sub_mul, ht] at h1
  have ho : (0 : ℝ) < oddFact (i + (i + j) + (i + k) + 1) := by exact_mod_cast oddFact_pos _
  unfold EvenGood
  generalize wsum (fun x y z => x ^ (2 * i) * y ^ (2 * (i + j)) * z ^ (2 * (i + k))) (allPts rows) (allWts rows) = Q at h1 ⊢
  unfold evenMean
  generalize hN : (oddFact i * oddFact (i + j) * oddFact (i + k) : ℝ) = N
  have hN' : (oddFact i * (oddFact (i + j) * oddFact (i + k)) : ℝ) = N := by rw [← hN]; ring
  rw [hN'] at h1
  generalize (oddFact (i + (i + j) + (i + k) + 1) : ℝ) = O at h1 ho ⊢
  have hE : (0 : ℝ) < 6 * 10 ^ 22 * (6 * 10 ^ 44) ^ (i + (i + j) + (i + k)) := by positivity
  have e60 : (60000000000000000000000 : ℝ) = 6 * 10 ^ 22 := by norm_num
  rw [e60] at h1
  generalize (6 * 10 ^ 22 * (6 * 10 ^ 44) ^ (i + (i + j) + (i + k)) : ℝ) = K at h1 hE
  have e : Q * K * O - K * N = (K * O) * (Q - N / O) := by field_simp
  rw [e, abs_mul, abs_of_pos (by positivity : 0 < K * O)] at h1
  have e2 : 4 / 10 ^ 15 * (K * N) = (K * O) * (4 / 10 ^ 15 * (N / O)) := by field_simp
  rw [e2] at h1
  exact le_of_mul_le_mul_left h1 (by positivity)

theorem checkJ_spec {rows : List SqRow} {m i n : Nat} (h : checkJ rows m i n = true) (j : Nat) (hj : j < n) (hij : i ≤ j)
    (hm : i + j + j ≤ m) : checkOne rows m i j (m - (i + j)) = true := by
  induction n with
  | zero => omega
  | succ n ih =>
    simp only [checkJ, Bool.and_eq_true] at h
    by_cases e : j = n
    · subst e
      have h1 := h.1
      have c1 : Nat.ble i j = true := Nat.ble_eq_true_of_le hij
      have c2 : Nat.ble (Nat.add i (Nat.add j j)) m = true := Nat.ble_eq_true_of_le (by simp only [Nat.add_eq]; omega)
      rw [c1, c2] at h1
      simpa using h1
    · exact ih h.2 (by omega)

theorem checkI_spec {rows : List SqRow} {m n : Nat} (h : checkI rows m n = true) (i : Nat) (hi : i < n) :
    checkJ rows m i (m + 1) = true := by
  induction n with
  | zero => omega
  | succ n ih =>
    simp only [checkI, Bool.and_eq_true] at h
    by_cases e : i = n
    · subst e; exact h.1
    · exact ih h.2 (by omega)

theorem evenGood_swap12 {q w : List ℝ} (hs : SymSum q w) {i j k : Nat} (h : EvenGood q w i j k) : EvenGood q w j i k := by
  unfold EvenGood at *
  have e1 : evenMean j i k = evenMean i j k := by unfold evenMean; rw [Nat.add_comm j i]; ring
  have e2 : (fun x y z : ℝ => x ^ (2 * j) * y ^ (2 * i) * z ^ (2 * k)) = fun x y z => y ^ (2 * i) * x ^ (2 * j) * z ^ (2 * k) := by
    funext x y z; ring
  rw [e1, e2, (hs fun x y z => x ^ (2 * i) * y ^ (2 * j) * z ^ (2 * k)).1]
  exact h

theorem evenGood_swap23 {q w : List ℝ} (hs : SymSum q w) {i j k : Nat} (h : EvenGood q w i j k) : EvenGood q w i k j := by
  unfold EvenGood at *
  have e1 : evenMean i k j = evenMean i j k := by unfold evenMean; rw [Nat.add_right_comm i k j]; ring
  have e2 : (fun x y z : ℝ => x ^ (2 * i) * y ^ (2 * k) * z ^ (2 * j)) = fun x y z => x ^ (2 * i) * z ^ (2 * j) * y ^ (2 * k) := by
    funext x y z; ring
  rw [e1, e2, (hs fun x y z => x ^ (2 * i) * y ^ (2 * j) * z ^ (2 * k)).2.1]
  exact h

/-- The even monomials of the greatest degree. -/
theorem top_good (rows : List OrbitRow) (h : ∀ o ∈ rows, RowOk o) (m : Nat)
    (hc : checkI (rows.map sqRow) m (m + 1) = true) (i j k : Nat) (hm : i + j + k = m) :
    EvenGood (allPts rows) (allWts rows) i j k := by
  have hs := symSum_all rows
  have sorted : ∀ i j k : Nat, i ≤ j → j ≤ k → i + j + k = m → EvenGood (allPts rows) (allWts rows) i j k := by
    intro i j k hij hjk hm
    have h1 := checkJ_spec (checkI_spec hc i (by omega)) j (by omega) hij (by omega)
    rw [show m - (i + j) = k by omega] at h1
    subst hm
    exact checkOne_spec rows h i j k hij (by omega) h1
  rcases Nat.le_total i j with a | a <;> rcases Nat.le_total j k with b | b <;> rcases Nat.le_total i k with c | c
  · exact sorted i j k a b hm
  · exact sorted i j k a b hm
  · exact evenGood_swap23 hs (sorted i k j c b (by omega))
  · exact evenGood_swap23 hs (evenGood_swap12 hs (sorted k i j c a (by omega)))
  · exact evenGood_swap12 hs (sorted j i k a c (by omega))
  · exact evenGood_swap12 hs (evenGood_swap23 hs (sorted j k i b c (by omega)))
  · exact evenGood_swap12 hs (evenGood_swap23 hs (evenGood_swap12 hs (sorted k j i b a (by omega))))
  · exact evenGood_swap12 hs (evenGood_swap23 hs (evenGood_swap12 hs (sorted k j i b a (by omega))))

/-- All points are on the sphere. -/
def OnSphere : List ℝ → Prop
  | x :: y :: z :: q => x ^ 2 + y ^ 2 + z ^ 2 = 1 ∧ OnSphere q
  | _ => True

theorem wsum_split (i j k : Nat) : ∀ q w : List ℝ, OnSphere q →
    wsum (fun x y z => x ^ (2 * i) * y ^ (2 * j) * z ^ (2 * k)) q w =
      wsum (fun x y z => x ^ (2 * (i + 1)) * y ^ (2 * j) * z ^ (2 * k)) q w +
      wsum (fun x y z => x ^ (2 * i) * y ^ (2 * (j + 1)) * z ^ (2 * k)) q w +
      wsum (fun x y z => x ^ (2 * i) * y ^ (2 * j) * z ^ (2 * (k + 1))) q w := by
  intro q w hq
  induction w generalizing q with
  | nil => unfold wsum; simp
  | cons a w ih =>
    match q, hq with
    | x :: y :: z :: q, hq =>
      simp only [wsum]
      rw [ih q hq.2]
      have e : x ^ (2 * i) * y ^ (2 * j) * z ^ (2 * k) =
          x ^ (2 * i) * y ^ (2 * j) * z ^ (2 * k) * (x ^ 2 + y ^ 2 + z ^ 2) := by rw [hq.1, mul_one]
      rw [e]
      ring
    | [], _ => simp [wsum]
    | [_], _ => simp [wsum]
    | [_, _], _ => simp [wsum]

/-- All even monomials up to the greatest degree. -/
theorem even_good (q w : List ℝ) (hq : OnSphere q) (m : Nat)
    (top : ∀ i j k : Nat, i + j + k = m → EvenGood q w i j k) (n i j k : Nat) (hm : i + j + k + n = m) : EvenGood q w i j k := by
  induction n generalizing i j k with
  | zero => exact top i j k hm
  | succ n ih =>
    have h1 := ih (i + 1) j k (by omega)
    have h2 := ih i (j + 1) k (by omega)
    have h3 := ih i j (k + 1) (by omega)
    unfold EvenGood at *
    rw [wsum_split i j k q w hq, evenMean_split i j k]
    rw [abs_le] at *
    constructor <;> linarith [h1.1, h1.2, h2.1, h2.2, h3.1, h3.2]

theorem onSphere_append (q q' : List ℝ) (hq : q.length % 3 = 0) (h : OnSphere q) (h' : OnSphere q') : OnSphere (q ++ q') := by
  match q, hq, h with
  | x :: y :: z :: q, hq, h => exact ⟨h.1, onSphere_append q q' (by simp at hq; omega) h.2 h'⟩
  | [], _, _ => simpa using h'
  | [_], hq, _ => simp at hq
  | [_, _], hq, _ => simp at hq

theorem onSphere_row (o : OrbitRow) (h : RowOk o) : OnSphere (rowPts o) := by
  have s2 : Real.sqrt (1 / 2) ^ 2 = 1 / 2 := Real.sq_sqrt (by norm_num)
  have s3 : Real.sqrt (1 / 3) ^ 2 = 1 / 3 := Real.sq_sqrt (by norm_num)
  unfold rowPts
  have hc := h.code
  match e : o.code, hc with
  | 0, _ => simp only [orbit0, OnSphere, neg_sq]; norm_num
  | 1, _ => simp only [orbit1, OnSphere, neg_sq, s2]; norm_num
  | 2, _ => simp only [orbit2, OnSphere, neg_sq, s3]; norm_num
  | 3, _ =>
    simp only [orbit3, OnSphere, neg_sq, Real.sq_sqrt (h.radicand3 e)]
    ring_nf; simp
  | 4, _ =>
    simp only [orbit4, OnSphere, neg_sq, Real.sq_sqrt (h.radicand4 e)]
    ring_nf; simp
  | 5, _ =>
    simp only [orbit5, OnSphere, neg_sq, Real.sq_sqrt (h.radicand5 e)]
    ring_nf; simp

theorem onSphere_all (rows : List OrbitRow) (h : ∀ o ∈ rows, RowOk o) : OnSphere (allPts rows) := by
  induction rows with
  | nil => trivial
  | cons o rest ih =>
    simp only [allPts, List.flatMap_cons] at *
    exact onSphere_append _ _ (by rw [rowPts_length]; omega) (onSphere_row o (h o List.mem_cons_self))
      (ih fun o ho => h o (List.mem_cons_of_mem _ ho))

/-- What the check of a table proves. -/
structure GridOk (rows : List OrbitRow) (d n : Nat) : Prop where
  count : countPts rows = d
  codes : ∀ o ∈ rows, RowOk o
  sphere : OnSphere (allPts rows)
  mono : ∀ i j k : Nat, i + j + k ≤ n →
    |wsum (fun x y z => x ^ i * y ^ j * z ^ k) (allPts rows) (allWts rows) -
      Spec.sphereMean (fun x y z => x ^ i * y ^ j * z ^ k)| ≤
        4 / 10 ^ 15 * Spec.sphereMean (fun x y z => x ^ i * y ^ j * z ^ k)

theorem checkRule_spec {rows : List OrbitRow} {d m : Nat} (h : checkRule rows d m = true) : GridOk rows d (2 * m + 1) := by
  unfold checkRule at h
  simp only [Bool.and_eq_true, List.all_eq_true] at h
  obtain ⟨⟨h1, h2⟩, h3⟩ := h
  have hr : ∀ o ∈ rows, RowOk o := fun o ho => rowOk_spec (h1 o ho)
  refine ⟨Nat.eq_of_beq_eq_true h2, hr, onSphere_all rows hr, fun i j k hn => ?_⟩
  by_cases ho : i % 2 = 1 ∨ j % 2 = 1 ∨ k % 2 = 1
  · rw [mean_odd i j k ho, wsum_odd _ _ (symSum_all rows) i j k ho]; simp
  · have e : ∃ i' j' k', i = 2 * i' ∧ j = 2 * j' ∧ k = 2 * k' := ⟨i / 2, j / 2, k / 2, by omega, by omega, by omega⟩
    obtain ⟨i', j', k', rfl, rfl, rfl⟩ := e
    rw [mean_even]
    exact even_good _ _ (onSphere_all rows hr) m (top_good rows hr m h3) (m - (i' + j' + k')) i' j' k' (by omega)

end Rstsr
