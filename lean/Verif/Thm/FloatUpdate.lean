import Verif.Thm.FloatDot
import Verif.Spec.FloatUpdate
/-!
# C101: the error of `matmul_from` for every `alpha` and `beta`
-/
namespace Rstsr
open Spec

section
variable {p e : Nat} (hp : 1 ≤ p) (hpe : p ≤ e) {add mul : Flt → Flt → Flt} (A : NearestAdd p e add) (M : NearestMul p e mul)

include hp hpe A in
/-- Terms added one after the other to any float. -/
theorem adds_approx_from {N : Nat} {T : ℚ} (hT : (1 + 1 / 2 ^ p) ^ N * T ≤ maxFinite p e) {start : Flt} (hs : start.Finite p e)
    {ts : List Flt} {v : Flt} (h : Adds add start ts v) (hf : ∀ x ∈ ts, x.Finite p e) (hN : ts.length ≤ N)
    (hm : |start.val| + (ts.map fun x => |x.val|).sum ≤ T) :
    Approx p e (ts.length + 1) (start.val + (ts.map Flt.val).sum) (|start.val| + (ts.map fun x => |x.val|).sum) v := by
  have h1u : (1 : ℚ) ≤ 1 + 1 / 2 ^ p := by
    have : (0 : ℚ) ≤ 1 / 2 ^ p := by positivity
    linarith
  have nn : ∀ l : List Flt, 0 ≤ (l.map fun x => |x.val|).sum := fun l => List.sum_nonneg (by simp)
  have fits : ∀ (n : Nat) (m : ℚ), n ≤ N → 0 ≤ m → m ≤ T → (1 + 1 / (2 : ℚ) ^ p) ^ n * m ≤ maxFinite p e := by
    intro n m hn h0 hm
    exact le_trans (mul_le_mul (pow_le_pow_right₀ h1u hn) hm h0 (by positivity)) hT
  have one : ∀ x : Flt, x.Finite p e → Approx p e 1 x.val |x.val| x := fun x hx => ⟨hx, le_rfl, by simp, fun h => by omega⟩
  induction h with
  | none => simpa using one start hs
  | @before ts v t _ ih =>
    simp only [List.map_append, List.sum_append, List.length_append, List.map_cons, List.map_nil, List.sum_cons,
      List.sum_nil, add_zero, List.length_cons, List.length_nil, Nat.zero_add] at hf hN hm ⊢
    have hx0 := abs_nonneg t.val
    have hs0 := abs_nonneg start.val
    have ih := ih (fun y hy => hf y (by simp [hy])) (by omega) (by linarith)
    have := (one t (hf t (by simp))).join hp hpe A ih (by
      rw [show 1 + (ts.length + 1) - 1 = ts.length + 1 by omega]
      exact fits _ _ hN (add_nonneg hx0 (add_nonneg hs0 (nn _))) (by linarith))
    rwa [show 1 + (ts.length + 1) = ts.length + 1 + 1 by omega, add_comm t.val, add_comm |t.val|, add_assoc start.val,
      add_assoc |start.val|] at this
  | @after ts v t _ ih =>
    simp only [List.map_append, List.sum_append, List.length_append, List.map_cons, List.map_nil, List.sum_cons,
      List.sum_nil, add_zero, List.length_cons, List.length_nil, Nat.zero_add] at hf hN hm ⊢
    have hx0 := abs_nonneg t.val
    have hs0 := abs_nonneg start.val
    have ih := ih (fun y hy => hf y (by simp [hy])) (by omega) (by linarith)
    have := ih.join hp hpe A (one t (hf t (by simp))) (by
      rw [show ts.length + 1 + 1 - 1 = ts.length + 1 by omega]
      exact fits _ _ hN (add_nonneg (add_nonneg hs0 (nn _)) hx0) (by linarith))
    rwa [add_assoc start.val, add_assoc |start.val|] at this

theorem sum_scaled {κ : Type} (a : ℚ) (f : κ → ℚ) (ps : List κ) : (ps.map fun q => a * f q).sum = a * (ps.map f).sum := by
  induction ps with
  | nil => simp
  | cons q ps ih => simp only [List.map_cons, List.sum_cons, ih]; ring

theorem terms_bound_of {κ : Type} {g : κ → Flt} {ex : κ → ℚ} {c d : ℚ} {ps : List κ}
    (h : ∀ q ∈ ps, |(g q).val - ex q| ≤ |ex q| * c + d) :
    |((ps.map g).map Flt.val).sum - (ps.map ex).sum| ≤ (ps.map fun q => |ex q|).sum * c + ps.length * d ∧
      ((ps.map g).map fun x => |x.val|).sum ≤ (ps.map fun q => |ex q|).sum * (1 + c) + ps.length * d := by
  induction ps with
  | nil => simp
  | cons q ps ih =>
    obtain ⟨h1, h2⟩ := ih fun q hq => h q (List.mem_cons_of_mem _ hq)
    have h3 := h q (by simp)
    simp only [List.map_cons, List.sum_cons, List.length_cons, Nat.cast_add, Nat.cast_one]
    constructor
    · have e1 : (g q).val + ((ps.map g).map Flt.val).sum - (ex q + (ps.map ex).sum) =
          ((g q).val - ex q) + (((ps.map g).map Flt.val).sum - (ps.map ex).sum) := by ring
      rw [e1]
      refine (abs_add_le _ _).trans ?_
      linarith
    · have h4 : |(g q).val| ≤ |ex q| + |(g q).val - ex q| := by
        have := abs_add_le (ex q) ((g q).val - ex q)
        simpa using this
      linarith

theorem abs_sub_chain {a b c x y : ℚ} (h1 : |a - b| ≤ x) (h2 : |b - c| ≤ y) : |a - c| ≤ x + y := by
  have := abs_add_le (a - b) (b - c)
  rw [show a - b + (b - c) = a - c by ring] at this
  linarith

theorem abs_le_of_near {a b x : ℚ} (h : |a - b| ≤ x) : |a| ≤ |b| + x := by
  have := abs_add_le b (a - b)
  rw [show b + (a - b) = a by ring] at this
  linarith

include hp hpe A M in
set_option maxHeartbeats 400000 in
theorem matWay_update {mul' : Flt → Flt → Flt} (M' : NearestMul p e mul') {alpha beta v r : Flt} {ps : List (Flt × Flt)}
    (h : MatWay mul' mul add (.num 0) alpha beta v ps r) (hr : UpdateInRange p e alpha beta v ps) :
    UpdateWithin p e alpha beta v ps r := by
  obtain ⟨ha, hb, hv, hdot, hR⟩ := hr
  obtain ⟨hf, hT⟩ := hdot
  obtain ⟨r1, r2⟩ := range_facts hT
  have hm : ∀ q ∈ ps, (mul' q.1 q.2).Finite p e ∧
      |(mul' q.1 q.2).val - q.1.val * q.2.val| ≤ |q.1.val * q.2.val| * (1 / 2 ^ p) + halfTiny p e :=
    fun q hq => mul_err hp hpe M' (hf q hq).1 (hf q hq).2 (r1 q hq)
  have hη := (halfTiny_pos p e).le
  have hu : (0 : ℚ) ≤ 1 / 2 ^ p := by positivity
  have hS := sum_abs_nonneg ps
  have hle : ∀ q ∈ ps, |q.1.val * q.2.val| ≤ (ps.map fun q => |q.1.val * q.2.val|).sum := fun q hq => le_sum_abs hq
  have hα := abs_nonneg alpha.val
  have hW := abs_nonneg (beta.val * v.val)
  have hn0 : (0 : ℚ) ≤ (ps.length : ℚ) := by positivity
  unfold UpdateWithin
  generalize hU : (1 + 1 / (2 : ℚ) ^ p) = U at *
  have hu' : 1 / (2 : ℚ) ^ p = U - 1 := by linarith
  rw [hu'] at hm hu
  have hU1 : 1 ≤ U := by linarith
  have hUn : 1 ≤ U ^ ps.length := one_le_pow₀ hU1
  have p1 : U ^ (ps.length + 1) = U ^ ps.length * U := pow_succ _ _
  have p2 : U ^ (ps.length + 2) = U ^ ps.length * U * U := by rw [pow_succ, pow_succ]
  rw [p1, p2] at hR ⊢
  have hWmax : |beta.val * v.val| ≤ maxFinite p e := by
    refine le_trans ?_ hR
    have h1 : 1 ≤ U ^ ps.length * U * U := by
      have := one_le_mul_of_one_le_of_one_le (one_le_mul_of_one_le_of_one_le hUn hU1) hU1
      exact this
    have h2 : 0 ≤ |alpha.val| * (ps.map fun q => |q.1.val * q.2.val|).sum := mul_nonneg hα hS
    have h3 : 0 ≤ U ^ ps.length * U * ((ps.length * |alpha.val| + ps.length + 2) * halfTiny p e) := by positivity
    nlinarith
  have hwe : ∀ w : Flt, w.Finite p e ∧ |w.val - beta.val * v.val| ≤ |beta.val * v.val| * (U - 1) + halfTiny p e →
      |w.val| ≤ |beta.val * v.val| * U + halfTiny p e := fun w hw => by
    have := abs_le_of_near hw.2
    linarith
  cases h with
  | spread h =>
    have hw := mul_err hp hpe M hb hv hWmax
    rw [hu'] at hw
    have hg : ∀ q ∈ ps, (mul alpha (mul' q.1 q.2)).Finite p e ∧
        |(mul alpha (mul' q.1 q.2)).val - alpha.val * (q.1.val * q.2.val)| ≤
          |alpha.val * (q.1.val * q.2.val)| * (U * U - 1) + (|alpha.val| * U + 1) * halfTiny p e := by
      intro q hq
      obtain ⟨k1, k2⟩ := hm q hq
      have k3 := abs_le_of_near k2
      have hn1 : (1 : ℚ) ≤ ps.length := by
        have := List.length_pos_of_mem hq
        exact_mod_cast this
      have hx := hle q hq
      have hx0 := abs_nonneg (q.1.val * q.2.val)
      have k4 : |alpha.val * (mul' q.1 q.2).val| ≤ |alpha.val| * (|q.1.val * q.2.val| * U + halfTiny p e) := by
        rw [abs_mul]
        exact mul_le_mul_of_nonneg_left (by linarith) hα
      have k5 : |alpha.val * (mul' q.1 q.2).val| ≤ maxFinite p e := by
        refine k4.trans (le_trans ?_ hR)
        have b1 : |alpha.val| * (|q.1.val * q.2.val| * U) ≤ U ^ ps.length * U * U * (|alpha.val| * (ps.map fun q => |q.1.val * q.2.val|).sum) := by
          have c1 : |alpha.val| * |q.1.val * q.2.val| ≤ |alpha.val| * (ps.map fun q => |q.1.val * q.2.val|).sum :=
            mul_le_mul_of_nonneg_left hx hα
          have c2 : U ≤ U ^ ps.length * U * U := by nlinarith [mul_le_mul hUn hU1 zero_le_one (by positivity)]
          calc |alpha.val| * (|q.1.val * q.2.val| * U) = U * (|alpha.val| * |q.1.val * q.2.val|) := by ring
            _ ≤ (U ^ ps.length * U * U) * (|alpha.val| * (ps.map fun q => |q.1.val * q.2.val|).sum) :=
              mul_le_mul c2 c1 (by positivity) (by positivity)
        have b2 : |alpha.val| * halfTiny p e ≤ U ^ ps.length * U * ((ps.length * |alpha.val| + ps.length + 2) * halfTiny p e) := by
          have c1 : 1 ≤ U ^ ps.length * U := one_le_mul_of_one_le_of_one_le hUn hU1
          have c2 : |alpha.val| ≤ ps.length * |alpha.val| + ps.length + 2 := by nlinarith
          calc |alpha.val| * halfTiny p e = 1 * (|alpha.val| * halfTiny p e) := by ring
            _ ≤ (U ^ ps.length * U) * ((ps.length * |alpha.val| + ps.length + 2) * halfTiny p e) :=
              mul_le_mul c1 (mul_le_mul_of_nonneg_right c2 hη) (by positivity) (by positivity)
        have b3 : 0 ≤ U ^ ps.length * U * U * |beta.val * v.val| := by positivity
        linarith
      obtain ⟨g1, g2⟩ := mul_err hp hpe M ha k1 k5
      rw [hu'] at g2
      refine ⟨g1, (abs_sub_chain (y := |alpha.val| * (|q.1.val * q.2.val| * (U - 1) + halfTiny p e)) g2 ?_).trans ?_⟩
      · rw [← mul_sub, abs_mul]
        exact mul_le_mul_of_nonneg_left k2 hα
      · rw [abs_mul alpha.val (q.1.val * q.2.val)]
        have := mul_le_mul_of_nonneg_right k4 hu
        linarith
    have tb := terms_bound_of (κ := Flt × Flt) (g := fun q => mul alpha (mul' q.1 q.2)) (ex := fun q => alpha.val * (q.1.val * q.2.val))
      (c := U * U - 1) (d := (|alpha.val| * U + 1) * halfTiny p e) (ps := ps)
    have hg2 : ∀ q ∈ ps, |(mul alpha (mul' q.1 q.2)).val - alpha.val * (q.1.val * q.2.val)| ≤
          |alpha.val * (q.1.val * q.2.val)| * (U * U - 1) + (|alpha.val| * U + 1) * halfTiny p e := fun q hq => (hg q hq).2
    beta_reduce at tb
    have tb := tb hg2
    obtain ⟨t1, t2⟩ := tb
    have ex1 : (ps.map fun q => alpha.val * (q.1.val * q.2.val)).sum = alpha.val * (ps.map fun q => q.1.val * q.2.val).sum :=
      sum_scaled ..
    have ex2 : (ps.map fun q => |alpha.val * (q.1.val * q.2.val)|).sum = |alpha.val| * (ps.map fun q => |q.1.val * q.2.val|).sum := by
      rw [← sum_scaled]
      congr 1
      apply List.map_congr_left
      intro q _
      rw [abs_mul]
    rw [ex1, ex2] at t1
    rw [ex2] at t2
    have w1 := hwe _ hw
    have hP : 0 ≤ |alpha.val| * (ps.map fun q => |q.1.val * q.2.val|).sum := mul_nonneg hα hS
    have hle2 : |(mul beta v).val| + ((ps.map fun q => mul alpha (mul' q.1 q.2)).map fun x => |x.val|).sum ≤
        U * U * (|beta.val * v.val| + |alpha.val| * (ps.map fun q => |q.1.val * q.2.val|).sum) +
          (ps.length * (|alpha.val| * U + 1) + 1) * halfTiny p e := by
      have : |beta.val * v.val| * U ≤ U * U * |beta.val * v.val| := by
        have := mul_le_mul_of_nonneg_left hU1 (mul_nonneg hW (by linarith : (0 : ℚ) ≤ U))
        linarith
      linarith
    have hcap : U ^ ps.length * (U * U * (|beta.val * v.val| + |alpha.val| * (ps.map fun q => |q.1.val * q.2.val|).sum) +
          (ps.length * (|alpha.val| * U + 1) + 1) * halfTiny p e) ≤
        U ^ ps.length * U * U * (|beta.val * v.val| + |alpha.val| * (ps.map fun q => |q.1.val * q.2.val|).sum) +
          U ^ ps.length * U * ((ps.length * |alpha.val| + ps.length + 2) * halfTiny p e) := by
      have c : ps.length * (|alpha.val| * U + 1) + 1 ≤ U * (ps.length * |alpha.val| + ps.length + 2) := by nlinarith
      have := mul_le_mul_of_nonneg_left (mul_le_mul_of_nonneg_right c hη) (by linarith : (0 : ℚ) ≤ U ^ ps.length)
      linarith
    have ap := adds_approx_from hp hpe A (N := ps.length) (by rw [hU]; exact hcap.trans hR) hw.1 h
      (by rintro x hx; obtain ⟨q, hq, rfl⟩ := List.mem_map.1 hx; exact (hg q hq).1) (by simp) hle2
    refine ⟨ap.fin, ?_⟩
    have err := ap.err
    rw [hU, Nat.add_sub_cancel, List.length_map] at err
    have err := err.trans (mul_le_mul_of_nonneg_left hle2 (by linarith : (0 : ℚ) ≤ U ^ ps.length - 1))
    have tot := abs_sub_chain err (c := beta.val * v.val + alpha.val * (ps.map fun q => q.1.val * q.2.val).sum)
      (y := |beta.val * v.val| * (U - 1) + halfTiny p e +
        (|alpha.val| * (ps.map fun q => |q.1.val * q.2.val|).sum * (U * U - 1) + ps.length * ((|alpha.val| * U + 1) * halfTiny p e))) (by
        rw [add_sub_add_comm]
        exact (abs_add_le _ _).trans (add_le_add hw.2 t1))
    refine tot.trans ?_
    have : |beta.val * v.val| * (U - 1) ≤ |beta.val * v.val| * (U * U - 1) := mul_le_mul_of_nonneg_left (by nlinarith) hW
    linarith
  | @gathered s r h hr =>
    obtain ⟨b, hp1, rfl⟩ := bracketOf_pairs h
    have e1 := hp1.length_eq
    have e2 := (hp1.map Flt.val).sum_eq
    have e3 := (hp1.map fun x => |x.val|).sum_eq
    have hm' : ∀ q ∈ ps, |(mul' q.1 q.2).val - q.1.val * q.2.val| ≤ |q.1.val * q.2.val| * (1 / 2 ^ p) + halfTiny p e := by
      intro q hq; rw [hu']; exact (hm q hq).2
    have hbd := terms_bound (g := fun q => mul' q.1 q.2) hm'
    rw [hU] at hbd
    have hs := bracket_approx hp hpe A (by rw [hU]; exact r2) b
      (by intro x hx; obtain ⟨q, hq, rfl⟩ := List.mem_map.1 (hp1.mem_iff.1 hx); exact (hm q hq).1)
      (by rw [e1]; simp) (e3.le.trans hbd.2)
    rw [e1, e2, e3] at hs
    have hs2 := dot_within hm' hs
    rw [hU] at hs2
    have hsf := hs.fin
    generalize b.value (.num 0) add add = s at *
    generalize hσ : (ps.map fun q => q.1.val * q.2.val).sum = σ at *
    have hσS : |σ| ≤ (ps.map fun q => |q.1.val * q.2.val|).sum := by
      rw [← hσ]
      clear * -
      induction ps with
      | nil => simp
      | cons q l ih => simp only [List.sum_cons, List.map_cons]; exact (abs_add_le _ _).trans (by linarith)
    generalize (ps.map fun q => |q.1.val * q.2.val|).sum = S at *
    have hVn : U * U ^ (ps.length - 1) * ps.length = U ^ ps.length * ps.length := by
      rcases Nat.eq_zero_or_pos ps.length with h0 | h0
      · rw [h0]; simp
      · obtain ⟨n, hn⟩ : ∃ n, ps.length = n + 1 := ⟨ps.length - 1, by omega⟩
        rw [hn, Nat.add_sub_cancel, pow_succ]; ring
    generalize U ^ (ps.length - 1) = V at *
    have hV : V * ps.length ≤ U ^ ps.length * ps.length := by
      rw [← hVn]
      have : 0 ≤ V * ps.length := by
        have : 0 ≤ U ^ ps.length * ps.length := by positivity
        rw [← hVn, mul_assoc] at this
        exact nonneg_of_mul_nonneg_right this (by linarith)
      nlinarith
    generalize (ps.length : ℚ) = n at *
    generalize U ^ ps.length = X at *
    have hX0 : 0 ≤ X := by linarith
    have hU0 : 0 ≤ U := by linarith
    have haS : 0 ≤ |alpha.val| * S := mul_nonneg hα hS
    have hXU : 1 ≤ X * U := one_le_mul_of_one_le_of_one_le hUn hU1
    have hXUU : X ≤ X * U * U := by
      have := mul_le_mul_of_nonneg_left (one_le_mul_of_one_le_of_one_le hU1 hU1) hX0
      linarith
    have hsS : |s.val| ≤ X * S + V * (n * halfTiny p e) := by
      have := abs_le_of_near hs2
      linarith
    have hVη : V * (n * halfTiny p e) ≤ X * n * halfTiny p e := by
      have := mul_le_mul_of_nonneg_right hV hη
      linarith
    have hUVη : U * (V * (n * halfTiny p e)) = X * n * halfTiny p e := by
      rw [← hVn]; ring
    have hnη : 0 ≤ n * halfTiny p e := mul_nonneg hn0 hη
    have hsα : |s.val * alpha.val| ≤ |alpha.val| * (X * S + V * (n * halfTiny p e)) := by
      rw [abs_mul, mul_comm]
      exact mul_le_mul_of_nonneg_left hsS hα
    have c1 : X * (|alpha.val| * S) ≤ X * U * U * (|alpha.val| * S) := mul_le_mul_of_nonneg_right hXUU haS
    have c1' : X * U * (|alpha.val| * S) ≤ X * U * U * (|alpha.val| * S) :=
      mul_le_mul_of_nonneg_right (le_mul_of_one_le_right (by linarith) hU1) haS
    have c2 : |alpha.val| * (X * n * halfTiny p e) ≤ X * U * (n * |alpha.val| * halfTiny p e) := by
      have := mul_le_mul_of_nonneg_right hU1 (mul_nonneg hX0 (mul_nonneg hα hnη))
      linarith
    have c3 : 0 ≤ X * U * U * |beta.val * v.val| := by positivity
    have c4 : 0 ≤ X * U * (n * halfTiny p e) := by positivity
    have c5 : 2 * halfTiny p e ≤ X * U * (2 * halfTiny p e) := le_mul_of_one_le_left (by linarith) hXU
    have c6 : U * |beta.val * v.val| ≤ X * U * U * |beta.val * v.val| := by
      refine mul_le_mul_of_nonneg_right ?_ hW
      exact le_mul_of_one_le_left hU0 hXU
    have c6' : U * U * |beta.val * v.val| ≤ X * U * U * |beta.val * v.val| := by
      refine mul_le_mul_of_nonneg_right ?_ hW
      have := mul_le_mul_of_nonneg_right hUn (mul_nonneg hU0 hU0)
      linarith
    have c7 : U * (2 * halfTiny p e) ≤ X * U * (2 * halfTiny p e) :=
      mul_le_mul_of_nonneg_right (le_mul_of_one_le_left hU0 hUn) (by linarith)
    have c8 := mul_le_mul_of_nonneg_left hVη hα
    obtain ⟨g1, g2⟩ := mul_err hp hpe M hsf ha (hsα.trans (by linarith))
    rw [hu'] at g2
    have hw := mul_err hp hpe M hv hb (by rw [mul_comm]; exact hWmax)
    rw [hu', mul_comm v.val] at hw
    have w1 := hwe _ hw
    have gE : |(mul s alpha).val - alpha.val * σ| ≤
        |alpha.val| * S * (X * U - 1) + |alpha.val| * (X * n * halfTiny p e) + halfTiny p e := by
      refine (abs_sub_chain (y := |alpha.val| * ((X - 1) * S + V * (n * halfTiny p e))) g2 ?_).trans ?_
      · rw [mul_comm s.val, ← mul_sub, abs_mul]
        exact mul_le_mul_of_nonneg_left hs2 hα
      · have k1 := mul_le_mul_of_nonneg_right hsα hu
        have k2 : |alpha.val| * (U * (V * (n * halfTiny p e))) = |alpha.val| * (X * n * halfTiny p e) := by rw [hUVη]
        linarith
    have gA : |(mul s alpha).val| ≤ X * U * (|alpha.val| * S) + |alpha.val| * (X * n * halfTiny p e) + halfTiny p e := by
      have k1 := abs_le_of_near gE
      have k2 : |alpha.val * σ| ≤ |alpha.val| * S := by
        rw [abs_mul]; exact mul_le_mul_of_nonneg_left hσS hα
      linarith
    have gh : |(mul s alpha).val + (mul v beta).val| ≤
        X * U * (|alpha.val| * S) + |alpha.val| * (X * n * halfTiny p e) + U * |beta.val * v.val| + 2 * halfTiny p e :=
      (abs_add_le _ _).trans (by linarith)
    have ghmax : |(mul s alpha).val + (mul v beta).val| ≤ maxFinite p e := gh.trans (by linarith)
    have main : ∀ r : Flt, r.Finite p e ∧ |r.val - ((mul s alpha).val + (mul v beta).val)| ≤
          |(mul s alpha).val + (mul v beta).val| * (U - 1) →
        r.Finite p e ∧ |r.val - (beta.val * v.val + alpha.val * σ)| ≤
          (X * U * U - 1) * (|beta.val * v.val| + |alpha.val| * S) + X * U * ((n * |alpha.val| + n + 2) * halfTiny p e) := by
      rintro r ⟨q1, q2⟩
      refine ⟨q1, (abs_sub_chain q2 (y := |alpha.val| * S * (X * U - 1) + |alpha.val| * (X * n * halfTiny p e) + halfTiny p e +
        (|beta.val * v.val| * (U - 1) + halfTiny p e)) ?_).trans ?_⟩
      · rw [add_comm (beta.val * v.val), add_sub_add_comm]
        exact (abs_add_le _ _).trans (add_le_add gE hw.2)
      · have k1 := mul_le_mul_of_nonneg_right gh hu
        have k2 : U * (|alpha.val| * (X * n * halfTiny p e)) = X * U * (n * |alpha.val| * halfTiny p e) := by ring
        linarith
    rcases hr with rfl | rfl
    · have := nearest_err hp hpe A g1 hw.1 ghmax
      rw [hu'] at this
      exact main _ this
    · have := nearest_err hp hpe A hw.1 g1 (by rw [add_comm]; exact ghmax)
      rw [hu', add_comm (mul v beta).val] at this
      exact main _ this

include hp hpe A M in
/-- `matmul_from` with floats, for every `alpha` and `beta` and every device and schedule: the error of each cell.
Missing: what `C42_matmul_from_partial` leaves out. -/
theorem C101_float_update_partial (dev : Order) (par : Option MatPar) (hd : MatDevice par) (a b c : Tensor Flt) (ha : a.WF) (hb : b.WF)
    (hc : c.WF) (ba bb bc rows cols : List Nat) (K : Nat) (S : MatShapes dev a.arr.shape b.arr.shape c.arr.shape ba bb bc rows cols K)
    (hr : ba ≠ [] → bb ≠ [] → ba.length = bb.length)
    (h0 : par = none → rows = [] → cols = [] → c.layout.offset = 0)
    (hz : 0 ∉ c.arr.shape → (0 : Int) ∉ c.layout.stride) (sa : a.Settled) (sb : b.Settled) (sc : c.Settled) (alpha beta : Flt) :
    ∃ w d, c.matmulFrom (floatOps add mul) mul dev par a b alpha beta = .ok w ∧ w.Leaves c.data d ∧
      (⟨d, c.layout⟩ : Tensor Flt).WF ∧
      MatUpdateBy dev (fun ps v r => UpdateInRange p e alpha beta v ps → UpdateWithin p e alpha beta v ps r)
        a.arr b.arr ba bb bc rows cols K c.arr (⟨d, c.layout⟩ : Tensor Flt).arr ∧
      ChangedOnly (Addressed c.layout.stride c.layout.offset c.layout.shape) c.data d := by
  obtain ⟨w, d, h1, h2, h3, h4, h5⟩ := C101_matmul_from_partial (floatOps add mul) mul dev par hd a b c ha hb hc ba bb bc rows cols K
    S hr h0 hz sa sb sc alpha beta
  exact ⟨w, d, h1, h2, h3, matUpdateBy_mono h4 fun ps v r g => matWay_update hp hpe A M (factorOrder_nearest M dev) g, h5⟩

end

/-- Singles: `3 * 7 + 2 * (3 * 5 + 4 * (-8))` is in range. -/
example : UpdateInRange 24 128 (.num 2) (.num 3) (.num 7) [(.num 3, .num 5), (.num 4, .num (-8))] := by
  refine ⟨by simpa using fvec_finite 2 (by norm_num), by simpa using fvec_finite 3 (by norm_num),
    by simpa using fvec_finite 7 (by norm_num), pairs_range, ?_⟩
  norm_num [Flt.val, Flt.rat?, halfTiny, maxFinite]

/-- Two matrices of singles with a gap and a transposition, added with weights to a third one. -/
example (par : Option MatPar) (hp : MatDevice par) := C101_float_update_partial (by decide) (by decide) (C100_add_nearest (p := 24) (e := 128)
  (by decide) (by decide)) (C101_mul_nearest (by decide) (by decide)) .C par hp singlesA singlesB
  ⟨[.num 1, .num 2, .num 3, .num 4], ⟨[⟨2, 2⟩, ⟨2, 1⟩], 0⟩⟩ ⟨by decide, rfl⟩ ⟨by decide, rfl⟩ ⟨by decide, rfl⟩ [] [] [] [2] [2] 2
  ⟨rfl, rfl, rfl, by decide, by decide, by decide, by decide, ⟨rfl, by decide⟩⟩ (by decide) (fun _ _ h => by cases h) (fun _ => by decide)
  (fun h => absurd h (by decide)) (fun h => absurd h (by decide)) (fun h => absurd h (by decide)) (.num 2) (.num 3)

end Rstsr
