import Verif.Proof.FloatSum
import Verif.Proof.Matmul
/-! # Sums of products of floats: lemmas -/
namespace Rstsr
open Spec

theorem halfTiny_pos (p e : Nat) : 0 < halfTiny p e := div_pos (two_zpow_pos _) (by norm_num)

/-- Rounding has a small relative error, or a tiny absolute one. -/
theorem roundTo_err_both (p e : Nat) (q : ℚ) : |roundTo p e q - q| ≤ |q| * (1 / 2 ^ p) + halfTiny p e := by
  have ht := halfTiny_pos p e
  by_cases h0 : q = 0
  · rw [h0, roundTo_zero]; simp; exact ht.le
  have h1 := roundTo_err p e q
  by_cases hu : 2 - (e : Int) - p ≤ Int.log 2 |q| + 1 - p
  · have h2 : ulpExp p e q = Int.log 2 |q| + 1 - p := max_eq_left hu
    have h3 := zpow_log_le h0
    rw [h2] at h1
    have h4 : (2 : ℚ) ^ (Int.log 2 |q| + 1 - p) / 2 = 2 ^ Int.log 2 |q| * (1 / 2 ^ p) := by
      rw [zpow_sub₀ (by norm_num), zpow_add₀ (by norm_num), zpow_natCast, zpow_one]
      field_simp
    rw [h4] at h1
    have := mul_le_mul_of_nonneg_right h3 (show (0 : ℚ) ≤ 1 / 2 ^ p by positivity)
    linarith
  · have h2 : ulpExp p e q = 2 - (e : Int) - p := max_eq_right (by omega)
    rw [h2] at h1
    have : (0 : ℚ) ≤ |q| * (1 / 2 ^ p) := by positivity
    have : (2 : ℚ) ^ (2 - (e : Int) - p) / 2 = halfTiny p e := rfl
    linarith

theorem fltZero_rat (b : Bool) : (fltZero b).rat? = some 0 := by cases b <;> rfl

/-- The modelled multiplication is the one of IEEE 754. -/
theorem fltMul_nearest {p e : Nat} (hp : 1 ≤ p) (hpe : p ≤ e) : NearestMul p e (fltMul p e) := by
  constructor
  · intro x y hx hy hb
    have key : (fltMul p e x y).rat? = some (roundTo p e (x.val * y.val)) := by
      obtain ⟨a, ha, ra⟩ := hx
      obtain ⟨b, hb', rb⟩ := hy
      rw [flt_val_of ha, flt_val_of hb'] at hb ⊢
      cases x with
      | nan s => cases ha
      | inf s => cases ha
      | negZero =>
        cases ha
        cases y with
        | nan s => cases hb'
        | inf s => cases hb'
        | negZero => cases hb'; simp [fltMul, Flt.rat?, roundTo_zero]
        | num r => cases hb'; rw [zero_mul, roundTo_zero]; exact fltZero_rat _
      | num q =>
        cases ha
        cases y with
        | nan s => cases hb'
        | inf s => cases hb'
        | negZero => cases hb'; rw [mul_zero, roundTo_zero]; exact fltZero_rat _
        | num r =>
          cases hb'
          rw [fltMul]
          split
          · rename_i h
            have h' : a * b = 0 := h
            rw [h', roundTo_zero]
            exact fltZero_rat _
          · exact roundFlt_rat (roundTo_in_range hp hpe hb)
    refine ⟨⟨_, key, roundTo_representable hp hpe (roundTo_in_range hp hpe hb)⟩, fun s hs => ?_⟩
    rw [flt_val_of key]
    exact roundTo_nearest hp _ hs
  · intro x y h
    rcases h with ⟨s, rfl⟩ | ⟨s, rfl⟩
    · exact ⟨s, by rw [fltMul]⟩
    · cases x <;> exact ⟨_, rfl⟩

section
variable {p e : Nat} {add mul : Flt → Flt → Flt}

/-- The error of one multiplication. -/
theorem mul_err (hp : 1 ≤ p) (hpe : p ≤ e) (M : NearestMul p e mul) {x y : Flt} (hx : x.Finite p e) (hy : y.Finite p e)
    (hb : |x.val * y.val| ≤ maxFinite p e) :
    (mul x y).Finite p e ∧ |(mul x y).val - x.val * y.val| ≤ |x.val * y.val| * (1 / 2 ^ p) + halfTiny p e := by
  obtain ⟨h1, h2⟩ := M.nearest x y hx hy hb
  exact ⟨h1, (h2 _ (roundTo_representable hp hpe (roundTo_in_range hp hpe hb))).trans (roundTo_err_both p e _)⟩

theorem mul_exact (M : NearestMul p e mul) {x y : Flt} (hx : x.Finite p e) (hy : y.Finite p e) (hr : Representable p e (x.val * y.val)) :
    (mul x y).Finite p e ∧ (mul x y).val = x.val * y.val := by
  obtain ⟨h1, h2⟩ := M.nearest x y hx hy (rep_le_max hr)
  have := h2 _ hr
  rw [sub_self, abs_zero] at this
  exact ⟨h1, sub_eq_zero.1 (abs_nonpos_iff.1 this)⟩

/-- Terms added one after the other. -/
theorem adds_approx (hp : 1 ≤ p) (hpe : p ≤ e) (A : NearestAdd p e add) {N : Nat} {T : ℚ}
    (hT : (1 + 1 / 2 ^ p) ^ (N - 1) * T ≤ maxFinite p e) {start : Flt} (hs : start.Finite p e) (h0 : start.val = 0) {ts : List Flt} {v : Flt}
    (h : Adds add start ts v) (hf : ∀ x ∈ ts, x.Finite p e) (hN : ts.length ≤ N) (hm : (ts.map fun x => |x.val|).sum ≤ T) :
    Approx p e ts.length (ts.map Flt.val).sum (ts.map fun x => |x.val|).sum v := by
  have h1u : (1 : ℚ) ≤ 1 + 1 / 2 ^ p := by
    have : (0 : ℚ) ≤ 1 / 2 ^ p := by positivity
    linarith
  have nn : ∀ l : List Flt, 0 ≤ (l.map fun x => |x.val|).sum := fun l => List.sum_nonneg (by simp)
  have fits : ∀ (n : Nat) (m : ℚ), n ≤ N → 0 ≤ m → m ≤ T → (1 + 1 / (2 : ℚ) ^ p) ^ (n - 1) * m ≤ maxFinite p e := by
    intro n m hn h0 hm
    exact le_trans (mul_le_mul (pow_le_pow_right₀ h1u (by omega)) hm h0 (by positivity)) hT
  have one : ∀ x : Flt, x.Finite p e → Approx p e 1 x.val |x.val| x := fun x hx => ⟨hx, le_rfl, by simp, fun h => by omega⟩
  induction h with
  | none => exact ⟨hs, by simp, by simp [h0], fun _ => rfl⟩
  | @before ts v t _ ih =>
    simp only [List.map_append, List.sum_append, List.length_append, List.map_cons, List.map_nil, List.sum_cons,
      List.sum_nil, add_zero, List.length_cons, List.length_nil, Nat.zero_add] at hf hN hm ⊢
    have hx0 := abs_nonneg t.val
    have ih := ih (fun y hy => hf y (by simp [hy])) (by omega) (by linarith)
    have := (one t (hf t (by simp))).join hp hpe A ih (by
      rw [show 1 + ts.length = ts.length + 1 from add_comm _ _, add_comm |t.val|]
      exact fits _ _ hN (add_nonneg (nn _) hx0) hm)
    rwa [show 1 + ts.length = ts.length + 1 from add_comm _ _, add_comm t.val, add_comm |t.val|] at this
  | @after ts v t _ ih =>
    simp only [List.map_append, List.sum_append, List.length_append, List.map_cons, List.map_nil, List.sum_cons,
      List.sum_nil, add_zero, List.length_cons, List.length_nil, Nat.zero_add] at hf hN hm ⊢
    have hx0 := abs_nonneg t.val
    have ih := ih (fun y hy => hf y (by simp [hy])) (by omega) (by linarith)
    exact ih.join hp hpe A (one t (hf t (by simp))) (fits _ _ hN (add_nonneg (nn _) hx0) hm)

theorem adds_nan (A : NearestAdd p e add) {start : Flt} {ts : List Flt} {v : Flt} (h : Adds add start ts v)
    (hn : start.IsNaN ∨ ∃ x ∈ ts, x.IsNaN) : v.IsNaN := by
  induction h with
  | none =>
    rcases hn with hn | ⟨x, hx, -⟩
    · exact hn
    · cases hx
  | @before ts v t _ ih =>
    rcases hn with hn | ⟨x, hx, hn⟩
    · exact A.nan _ _ (.inr (ih (.inl hn)))
    · rcases List.mem_append.1 hx with hx | hx
      · exact A.nan _ _ (.inr (ih (.inr ⟨x, hx, hn⟩)))
      · rw [List.mem_singleton.1 hx] at hn
        exact A.nan _ _ (.inl hn)
  | @after ts v t _ ih =>
    rcases hn with hn | ⟨x, hx, hn⟩
    · exact A.nan _ _ (.inl (ih (.inl hn)))
    · rcases List.mem_append.1 hx with hx | hx
      · exact A.nan _ _ (.inl (ih (.inr ⟨x, hx, hn⟩)))
      · rw [List.mem_singleton.1 hx] at hn
        exact A.nan _ _ (.inr hn)

/-- Whole numbers added one after the other. -/
theorem adds_exact (hp : 1 ≤ p) (hpe : p ≤ e) (A : NearestAdd p e add) {start : Flt} {z0 : Int} (hs : start.Finite p e) (h0 : start.val = z0)
    {ts : List Flt} {v : Flt} (h : Adds add start ts v) (z : Flt → Int) (hf : ∀ x ∈ ts, x.Finite p e ∧ x.val = z x)
    (hm : |z0| + (ts.map fun x => |z x|).sum ≤ 2 ^ p) :
    v.Finite p e ∧ v.val = (z0 + (ts.map z).sum : Int) ∧ |z0 + (ts.map z).sum| ≤ |z0| + (ts.map fun x => |z x|).sum := by
  have step : ∀ {x y : Flt} {a b : Int}, x.Finite p e → y.Finite p e → x.val = a → y.val = b → |a + b| ≤ 2 ^ p →
      (add x y).Finite p e ∧ (add x y).val = (a + b : Int) := by
    intro x y a b hx hy ha hb hab
    have hr := representable_int (e := e) hab hp hpe
    have he : x.val + y.val = ((a + b : Int) : ℚ) := by rw [ha, hb]; push_cast; rfl
    obtain ⟨g1, g2⟩ := nearest_exact A hx hy (by rw [he]; exact rep_le_max hr) (by rw [he]; exact hr)
    exact ⟨g1, g2.trans he⟩
  induction h with
  | none => exact ⟨hs, by simp [h0], by simp⟩
  | @before ts v t _ ih =>
    simp only [List.map_append, List.sum_append, List.map_cons, List.map_nil, List.sum_cons, List.sum_nil, add_zero] at hf hm ⊢
    have ht0 := abs_nonneg (z t)
    obtain ⟨h1, h2, h3⟩ := ih (fun y hy => hf y (by simp [hy])) (by linarith)
    obtain ⟨k1, k2⟩ := hf t (by simp)
    have hab : |z0 + ((ts.map z).sum + z t)| ≤ |z0| + ((ts.map fun x => |z x|).sum + |z t|) := by
      rw [← add_assoc]
      exact (abs_add_le _ _).trans (by linarith)
    have he : z t + (z0 + (ts.map z).sum) = z0 + ((ts.map z).sum + z t) := by ring
    obtain ⟨g1, g2⟩ := step k1 h1 k2 h2 (by rw [he]; exact hab.trans hm)
    exact ⟨g1, by rw [g2, he], hab⟩
  | @after ts v t _ ih =>
    simp only [List.map_append, List.sum_append, List.map_cons, List.map_nil, List.sum_cons, List.sum_nil, add_zero] at hf hm ⊢
    have ht0 := abs_nonneg (z t)
    obtain ⟨h1, h2, h3⟩ := ih (fun y hy => hf y (by simp [hy])) (by linarith)
    obtain ⟨k1, k2⟩ := hf t (by simp)
    have hab : |z0 + ((ts.map z).sum + z t)| ≤ |z0| + ((ts.map fun x => |z x|).sum + |z t|) := by
      rw [← add_assoc]
      exact (abs_add_le _ _).trans (by linarith)
    have he : z0 + (ts.map z).sum + z t = z0 + ((ts.map z).sum + z t) := by ring
    obtain ⟨g1, g2⟩ := step h1 k1 h2 k2 (by rw [he]; exact hab.trans hm)
    exact ⟨g1, by rw [g2, he], hab⟩

end

/-- The bracket of the images. -/
def mapBracket {α γ : Type} (f : α → γ) : Bracket α → Bracket γ
  | .start => .start
  | .feed b x => .feed (mapBracket f b) (f x)
  | .both b c => .both (mapBracket f b) (mapBracket f c)

theorem bracketOf_map {α β σ : Type} {zero : σ} {fA : σ → α → σ} {fB : σ → β → σ} {plus : σ → σ → σ} (g : α → β)
    (hg : ∀ acc x, fB acc (g x) = fA acc x) {xs : List α} {s : σ} (h : BracketOf zero fA plus xs s) :
    BracketOf zero fB plus (xs.map g) s := by
  obtain ⟨b, h1, rfl⟩ := h
  have hi : ∀ b, (mapBracket g b).items = b.items.map g := by
    intro b
    induction b with
    | start => rfl
    | feed b x ih => simp [mapBracket, Bracket.items, ih]
    | both b c ihb ihc => simp [mapBracket, Bracket.items, ihb, ihc]
  have hv : ∀ b, (mapBracket g b).value zero fB plus = b.value zero fA plus := by
    intro b
    induction b with
    | start => rfl
    | feed b x ih => simp [mapBracket, Bracket.value, ih, hg]
    | both b c ihb ihc => simp [mapBracket, Bracket.value, ihb, ihc]
  exact ⟨mapBracket g b, by rw [hi]; exact h1.map _, (hv b).symm⟩

/-- A bracket over pairs is a bracket over their products. -/
theorem bracketOf_pairs {α β γ : Type} {mul : α → β → γ} {plus : γ → γ → γ} {zero : γ} {ps : List (α × β)} {s : γ}
    (h : BracketOf zero (fun acc p => plus acc (mul p.1 p.2)) plus ps s) :
    BracketOf zero plus plus (ps.map fun p => mul p.1 p.2) s := bracketOf_map (fun p : α × β => mul p.1 p.2) (fun _ _ => rfl) h

section
variable {p e : Nat} {add mul : Flt → Flt → Flt}

theorem NearestMul_flip (M : NearestMul p e mul) : NearestMul p e fun x y => mul y x where
  nearest x y hx hy hb := by
    rw [mul_comm] at hb ⊢
    exact M.nearest y x hy hx hb
  nan x y h := M.nan y x h.symm

theorem representable_val {x : Flt} (h : x.Finite p e) : Representable p e x.val := by
  obtain ⟨q, h1, h2⟩ := h
  rwa [flt_val_of h1]

/-- The sum of the terms, when each is close to its product. -/
theorem terms_bound {g : Flt × Flt → Flt} {ps : List (Flt × Flt)}
    (h : ∀ q ∈ ps, |(g q).val - q.1.val * q.2.val| ≤ |q.1.val * q.2.val| * (1 / 2 ^ p) + halfTiny p e) :
    |((ps.map g).map Flt.val).sum - (ps.map fun q => q.1.val * q.2.val).sum| ≤
        (ps.map fun q => |q.1.val * q.2.val|).sum * (1 / 2 ^ p) + ps.length * halfTiny p e ∧
      ((ps.map g).map fun x => |x.val|).sum ≤
        (ps.map fun q => |q.1.val * q.2.val|).sum * (1 + 1 / 2 ^ p) + ps.length * halfTiny p e := by
  induction ps with
  | nil => simp
  | cons q ps ih =>
    obtain ⟨h1, h2⟩ := ih fun q hq => h q (List.mem_cons_of_mem _ hq)
    have h3 := h q (by simp)
    simp only [List.map_cons, List.sum_cons, List.length_cons, Nat.cast_add, Nat.cast_one]
    constructor
    · have e1 : (g q).val + ((ps.map g).map Flt.val).sum - (q.1.val * q.2.val + (ps.map fun q => q.1.val * q.2.val).sum) =
          ((g q).val - q.1.val * q.2.val) + (((ps.map g).map Flt.val).sum - (ps.map fun q => q.1.val * q.2.val).sum) := by ring
      rw [e1]
      refine (abs_add_le _ _).trans ?_
      linarith
    · have h4 : |(g q).val| ≤ |q.1.val * q.2.val| + |(g q).val - q.1.val * q.2.val| := by
        have := abs_add_le (q.1.val * q.2.val) ((g q).val - q.1.val * q.2.val)
        simpa using this
      linarith

/-- From the error of the additions to that of the whole. -/
theorem dot_within {g : Flt × Flt → Flt} {ps : List (Flt × Flt)} {v : Flt}
    (h : ∀ q ∈ ps, |(g q).val - q.1.val * q.2.val| ≤ |q.1.val * q.2.val| * (1 / 2 ^ p) + halfTiny p e)
    (ha : Approx p e (ps.map g).length ((ps.map g).map Flt.val).sum ((ps.map g).map fun x => |x.val|).sum v) :
    |v.val - (ps.map fun q => q.1.val * q.2.val).sum| ≤ ((1 + 1 / 2 ^ p) ^ ps.length - 1) * (ps.map fun q => |q.1.val * q.2.val|).sum +
      (1 + 1 / 2 ^ p) ^ (ps.length - 1) * (ps.length * halfTiny p e) := by
  have h1 := ha.err
  rw [List.length_map] at h1
  obtain ⟨h2, h3⟩ := terms_bound h
  by_cases hn : ps = []
  · subst hn
    simpa using h1
  have hl : 0 < ps.length := List.length_pos_of_ne_nil hn
  obtain ⟨n, hn⟩ : ∃ n, ps.length = n + 1 := ⟨ps.length - 1, by omega⟩
  rw [hn] at h1 h2 h3 ⊢
  rw [Nat.add_sub_cancel] at h1 ⊢
  have hu : (1 : ℚ) ≤ (1 + 1 / 2 ^ p) ^ n := one_le_pow₀ (by
    have : (0 : ℚ) ≤ 1 / 2 ^ p := by positivity
    linarith)
  rw [pow_succ]
  generalize (1 + 1 / (2 : ℚ) ^ p) ^ n = U at h1 hu ⊢
  generalize ((ps.map g).map fun x => |x.val|).sum = m at h1 h3
  generalize ((ps.map g).map Flt.val).sum = s at h1 h2
  generalize (ps.map fun q => |q.1.val * q.2.val|).sum = A at h2 h3 ⊢
  generalize (ps.map fun q => q.1.val * q.2.val).sum = S at h2 ⊢
  generalize ((n + 1 : Nat) : ℚ) * halfTiny p e = H at h2 h3 ⊢
  generalize (1 : ℚ) / 2 ^ p = u at h2 h3 ⊢
  have h5 := mul_le_mul_of_nonneg_left h3 (show 0 ≤ U - 1 by linarith)
  have h6 : |v.val - S| ≤ |v.val - s| + |s - S| := abs_sub_le _ _ _
  nlinarith

theorem sum_abs_nonneg (ps : List (Flt × Flt)) : 0 ≤ (ps.map fun q => |q.1.val * q.2.val|).sum :=
  List.sum_nonneg (by rintro _ h; obtain ⟨q, -, rfl⟩ := List.mem_map.1 h; exact abs_nonneg _)

theorem le_sum_abs {ps : List (Flt × Flt)} {q : Flt × Flt} (hq : q ∈ ps) : |q.1.val * q.2.val| ≤ (ps.map fun q => |q.1.val * q.2.val|).sum :=
  List.single_le_sum (by rintro _ h; obtain ⟨q, -, rfl⟩ := List.mem_map.1 h; exact abs_nonneg _) _ (List.mem_map.2 ⟨q, hq, rfl⟩)

/-- The products stay in range, and so do their sums. -/
theorem range_facts {ps : List (Flt × Flt)}
    (hT : (1 + 1 / 2 ^ p) ^ ps.length * (ps.map fun q => |q.1.val * q.2.val|).sum +
      (1 + 1 / 2 ^ p) ^ (ps.length - 1) * (ps.length * halfTiny p e) ≤ maxFinite p e) :
    (∀ q ∈ ps, |q.1.val * q.2.val| ≤ maxFinite p e) ∧
    (1 + 1 / 2 ^ p) ^ (ps.length - 1) * ((ps.map fun q => |q.1.val * q.2.val|).sum * (1 + 1 / 2 ^ p) + ps.length * halfTiny p e) ≤
      maxFinite p e := by
  have hu0 : (0 : ℚ) ≤ 1 / 2 ^ p := by positivity
  have hn := sum_abs_nonneg ps
  have ht := halfTiny_pos p e
  constructor
  · intro q hq
    refine (le_sum_abs hq).trans (le_trans ?_ hT)
    have h1 : (1 : ℚ) ≤ (1 + 1 / 2 ^ p) ^ ps.length := one_le_pow₀ (by linarith)
    have h2 : 0 ≤ (1 + 1 / (2 : ℚ) ^ p) ^ (ps.length - 1) * (ps.length * halfTiny p e) := by positivity
    nlinarith
  · by_cases h0 : ps = []
    · subst h0
      simp only [List.map_nil, List.sum_nil, List.length_nil, Nat.cast_zero, zero_mul, add_zero, mul_zero] at hT ⊢
      exact hT
    have hl : 0 < ps.length := List.length_pos_of_ne_nil h0
    obtain ⟨n, hn⟩ : ∃ n, ps.length = n + 1 := ⟨ps.length - 1, by omega⟩
    rw [hn] at hT ⊢
    rw [Nat.add_sub_cancel] at hT ⊢
    rw [pow_succ] at hT
    calc _ = _ := by ring
      _ ≤ _ := hT

theorem mul_one_exact (M : NearestMul p e mul) {x o : Flt} (hx : x.Finite p e) (ho : o.Finite p e) (h1 : o.val = 1) :
    ((mul o x).Finite p e ∧ (mul o x).val = x.val) ∧ ((mul x o).Finite p e ∧ (mul x o).val = x.val) := by
  have h2 := mul_exact M ho hx (by rw [h1, one_mul]; exact representable_val hx)
  have h3 := mul_exact M hx ho (by rw [h1, mul_one]; exact representable_val hx)
  rw [h1, one_mul] at h2
  rw [h1, mul_one] at h3
  exact ⟨h2, h3⟩

theorem mul_zero_exact (M : NearestMul p e mul) {x z : Flt} (hx : x.Finite p e) (hz : z.Finite p e) (h0 : z.val = 0) :
    ((mul z x).Finite p e ∧ (mul z x).val = 0) ∧ ((mul x z).Finite p e ∧ (mul x z).val = 0) := by
  have hr : Representable p e 0 := h0 ▸ representable_val hz
  have h2 := mul_exact M hz hx (by rw [h0, zero_mul]; exact hr)
  have h3 := mul_exact M hx hz (by rw [h0, mul_zero]; exact hr)
  rw [h0, zero_mul] at h2
  rw [h0, mul_zero] at h3
  exact ⟨h2, h3⟩

end

end Rstsr
