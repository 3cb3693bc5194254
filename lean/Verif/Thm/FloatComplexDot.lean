import Verif.Thm.FloatComplex
import Verif.Thm.FloatVecdot
/-!
# C110: products of matrices and vectors of complex numbers with parts that are floats
-/
namespace Rstsr
open Spec

/-! ## Sums of complex products, part by part -/

theorem near_terms {κ : Type} {g : κ → Flt} {ex w : κ → ℚ} {c d : ℚ} {ps : List κ}
    (h : ∀ q ∈ ps, |ex q| ≤ w q ∧ |(g q).val - ex q| ≤ c * w q + d) :
    |((ps.map g).map Flt.val).sum - (ps.map ex).sum| ≤ c * (ps.map w).sum + ps.length * d ∧
      ((ps.map g).map fun x => |x.val|).sum ≤ (1 + c) * (ps.map w).sum + ps.length * d := by
  induction ps with
  | nil => simp
  | cons q ps ih =>
    obtain ⟨h1, h2⟩ := ih fun q hq => h q (List.mem_cons_of_mem _ hq)
    obtain ⟨h3, h4⟩ := h q (by simp)
    simp only [List.map_cons, List.sum_cons, List.length_cons, Nat.cast_add, Nat.cast_one]
    constructor
    · rw [show (g q).val + ((ps.map g).map Flt.val).sum - (ex q + (ps.map ex).sum) =
          ((g q).val - ex q) + (((ps.map g).map Flt.val).sum - (ps.map ex).sum) by ring]
      refine (abs_add_le _ _).trans ?_
      linarith
    · have := abs_le_of_near h4
      linarith

theorem partDot_bound {k t W E v S A : ℚ} {n : Nat} (hk : 1 ≤ k) (hA : 0 ≤ A) (h1 : |v - S| ≤ (k ^ (n - 1) - 1) * A)
    (h2 : |S - E| ≤ (k ^ 2 - 1) * W + n * (2 * k * t)) (h3 : A ≤ k ^ 2 * W + n * (2 * k * t)) (hW : n = 0 → W = 0) :
    |v - E| ≤ (k ^ (n + 1) - 1) * W + k ^ n * (2 * n * t) := by
  cases n with
  | zero =>
    have := hW rfl
    subst this
    simp at h1 h2 ⊢
    linarith
  | succ n =>
    rw [Nat.add_sub_cancel] at h1
    have hp : 0 ≤ k ^ n - 1 := by have := one_le_pow₀ hk (n := n); linarith
    have h4 := mul_le_mul_of_nonneg_left h3 hp
    have h5 : |v - E| ≤ |v - S| + |S - E| := abs_sub_le _ _ _
    have e1 : k ^ (n + 1 + 1) = k ^ n * k ^ 2 := by ring
    have e2 : k ^ (n + 1) = k ^ n * k := by ring
    rw [e1, e2]
    generalize k ^ n = P at *
    nlinarith

section
variable {p e : Nat} (hp : 1 ≤ p) (hpe : p ≤ e) {add : Flt → Flt → Flt} (A : NearestAdd p e add)

include hp hpe A in
/-- Terms that are near `ex` add up to something near the sum, added one by one or with brackets. -/
theorem partDot_within {κ : Type} {ps : List κ} {g : κ → Flt} {ex w : κ → ℚ} {v : Flt}
    (hg : ∀ q ∈ ps, (g q).Finite p e ∧ |ex q| ≤ w q ∧
      |(g q).val - ex q| ≤ ((1 + 1 / 2 ^ p) ^ 2 - 1) * w q + 2 * (1 + 1 / 2 ^ p) * halfTiny p e)
    (hr : PartDotInRange p e ps.length (ps.map w).sum)
    (h : (∃ start, start.Finite p e ∧ start.val = 0 ∧ Adds add start (ps.map g) v) ∨ BracketOf (.num 0) add add (ps.map g) v) :
    PartDotWithin p e ps.length (ps.map ex).sum (ps.map w).sum v := by
  have hu := ulp_nonneg p
  have ht := (halfTiny_pos p e).le
  have hk : (1 : ℚ) ≤ 1 + 1 / 2 ^ p := by linarith
  obtain ⟨b1, b2⟩ := near_terms fun q hq => (hg q hq).2
  have b3 : ((ps.map g).map fun x => |x.val|).sum ≤ (1 + 1 / 2 ^ p) ^ 2 * (ps.map w).sum + ps.length * (2 * (1 + 1 / 2 ^ p) * halfTiny p e) := by
    linarith
  have nn : 0 ≤ ((ps.map g).map fun x => |x.val|).sum := List.sum_nonneg (by simp)
  have hT : (1 + 1 / 2 ^ p) ^ (ps.length - 1) * ((1 + 1 / 2 ^ p) ^ 2 * (ps.map w).sum + ps.length * (2 * (1 + 1 / 2 ^ p) * halfTiny p e)) ≤
      maxFinite p e := by
    unfold PartDotInRange at hr
    cases ps with
    | nil => simpa using (maxFinite_pos e hp).le
    | cons q qs =>
      refine le_trans (le_of_eq ?_) hr
      simp only [List.length_cons, Nat.add_sub_cancel]
      ring
  have hf : ∀ x ∈ ps.map g, x.Finite p e := by rintro x hx; obtain ⟨q, hq, rfl⟩ := List.mem_map.1 hx; exact (hg q hq).1
  have ha : Approx p e ps.length ((ps.map g).map Flt.val).sum ((ps.map g).map fun x => |x.val|).sum v := by
    rcases h with ⟨start, s1, s2, h⟩ | h
    · have := adds_approx hp hpe A hT s1 s2 h hf (by simp) b3
      rwa [List.length_map] at this
    · obtain ⟨b, hp1, rfl⟩ := h
      have e1 := hp1.length_eq
      have e2 := (hp1.map Flt.val).sum_eq
      have e3 := (hp1.map fun x => |x.val|).sum_eq
      have := bracket_approx hp hpe A hT b (fun x hx => hf x (hp1.mem_iff.1 hx)) (by rw [e1]; simp) (e3.le.trans b3)
      rwa [e1, e2, e3, List.length_map] at this
  refine ⟨ha.fin, partDot_bound hk nn ha.err b1 b3 fun h0 => ?_⟩
  rw [List.length_eq_zero_iff.1 h0]
  rfl

end

/-- `v` is finite and equals `x`. -/
def FltIs (p e : Nat) (v : Flt) (x : ℚ) : Prop := v.Finite p e ∧ v.val = x

theorem partDotWithin_of {p e n : Nat} {E m : ℚ} {v r : Flt} (h : PartDotWithin p e n E m v) (hr : FltIs p e r v.val) : PartDotWithin p e n E m r :=
  ⟨hr.1, by rw [hr.2]; exact h.2⟩

theorem adds_parts {α : Type} {o : PartOps α} {start : Cx α} {ts : List (Cx α)} {v : Cx α} (h : Adds (Cx.add o) start ts v) :
    Adds o.add start.re (ts.map Cx.re) v.re ∧ Adds o.add start.im (ts.map Cx.im) v.im := by
  induction h with
  | none => exact ⟨.none, .none⟩
  | before t _ ih => simp only [List.map_append, List.map_cons, List.map_nil]; exact ⟨.before _ ih.1, .before _ ih.2⟩
  | after t _ ih => simp only [List.map_append, List.map_cons, List.map_nil]; exact ⟨.after _ ih.1, .after _ ih.2⟩

section
variable {p e : Nat} (hp : 1 ≤ p) (hpe : p ≤ e) {o : PartOps Flt} (O : IeeeParts p e o)

include O in
theorem stands_add {x y : Flt} (hx : x.Finite p e) (hy : FltIs p e y 0) :
    FltIs p e (o.add x y) x.val ∧ FltIs p e (o.add y x) x.val ∧ FltIs p e (o.sub x y) x.val := by
  have hr := finite_rep hx
  have h1 := nearest_exact O.add hx hy.1 (by rw [hy.2, add_zero]; exact rep_le_max hr) (by rw [hy.2, add_zero]; exact hr)
  have h2 := nearest_exact O.add hy.1 hx (by rw [hy.2, zero_add]; exact rep_le_max hr) (by rw [hy.2, zero_add]; exact hr)
  obtain ⟨k1, k2⟩ := O.sub.nearest _ _ hx hy.1 (by rw [hy.2, sub_zero]; exact rep_le_max hr)
  have k3 := k2 _ hr
  rw [hy.2, sub_zero, sub_self, abs_zero] at k3
  rw [hy.2, add_zero] at h1
  rw [hy.2, zero_add] at h2
  exact ⟨h1, h2, k1, sub_eq_zero.1 (abs_nonpos_iff.1 k3)⟩

/-- Both parts are finite. -/
def CxFinite (p e : Nat) (z : Cx Flt) : Prop := z.re.Finite p e ∧ z.im.Finite p e

include O in
theorem cx_mul_one {one z : Cx Flt} (h1 : FltIs p e one.re 1 ∧ FltIs p e one.im 0) (hz : CxFinite p e z) :
    (FltIs p e (Cx.mul o one z).re z.re.val ∧ FltIs p e (Cx.mul o one z).im z.im.val) ∧
    (FltIs p e (Cx.mul o z one).re z.re.val ∧ FltIs p e (Cx.mul o z one).im z.im.val) := by
  obtain ⟨a1, a2⟩ := mul_one_exact O.mul hz.1 h1.1.1 h1.1.2
  obtain ⟨b1, b2⟩ := mul_one_exact O.mul hz.2 h1.1.1 h1.1.2
  obtain ⟨c1, c2⟩ := mul_zero_exact O.mul hz.1 h1.2.1 h1.2.2
  obtain ⟨d1, d2⟩ := mul_zero_exact O.mul hz.2 h1.2.1 h1.2.2
  have e1 := (stands_add O a1.1 d1).2.2
  have e2 := (stands_add O b1.1 c1).1
  have e3 := (stands_add O a2.1 d2).2.2
  have e4 := (stands_add O b2.1 c2).2.1
  rw [a1.2] at e1
  rw [b1.2] at e2
  rw [a2.2] at e3
  rw [b2.2] at e4
  exact ⟨⟨e1, e2⟩, e3, e4⟩

include O in
theorem cx_mul_zero {zero z : Cx Flt} (h0 : FltIs p e zero.re 0 ∧ FltIs p e zero.im 0) (hz : CxFinite p e z) :
    (FltIs p e (Cx.mul o zero z).re 0 ∧ FltIs p e (Cx.mul o zero z).im 0) ∧
    (FltIs p e (Cx.mul o z zero).re 0 ∧ FltIs p e (Cx.mul o z zero).im 0) := by
  obtain ⟨a1, a2⟩ := mul_zero_exact O.mul hz.1 h0.1.1 h0.1.2
  obtain ⟨b1, b2⟩ := mul_zero_exact O.mul hz.2 h0.1.1 h0.1.2
  obtain ⟨c1, c2⟩ := mul_zero_exact O.mul hz.1 h0.2.1 h0.2.2
  obtain ⟨d1, d2⟩ := mul_zero_exact O.mul hz.2 h0.2.1 h0.2.2
  have e1 := (stands_add O a1.1 d1).2.2
  have e2 := (stands_add O b1.1 c1).1
  have e3 := (stands_add O a2.1 d2).2.2
  have e4 := (stands_add O b2.1 c2).2.1
  rw [a1.2] at e1
  rw [b1.2] at e2
  rw [a2.2] at e3
  rw [b2.2] at e4
  exact ⟨⟨e1, e2⟩, e3, e4⟩

/-- A term is near `ex`, whose size is `w`. -/
def NearTerm (p e : Nat) (v : Flt) (ex w : ℚ) : Prop :=
  v.Finite p e ∧ |ex| ≤ w ∧ |v.val - ex| ≤ ((1 + 1 / 2 ^ p) ^ 2 - 1) * w + 2 * (1 + 1 / 2 ^ p) * halfTiny p e

theorem NearTerm.of {v r : Flt} {ex w : ℚ} (h : NearTerm p e v ex w) (hr : FltIs p e r v.val) : NearTerm p e r ex w :=
  ⟨hr.1, h.2.1, by rw [hr.2]; exact h.2.2⟩

include hp hpe O in
theorem cxBracket_within {κ : Type} {ps : List κ} {G : κ → Cx Flt} {eR eI wR wI : κ → ℚ} {v : Cx Flt}
    (hR : ∀ q ∈ ps, NearTerm p e (G q).re (eR q) (wR q)) (hI : ∀ q ∈ ps, NearTerm p e (G q).im (eI q) (wI q))
    (rR : PartDotInRange p e ps.length (ps.map wR).sum) (rI : PartDotInRange p e ps.length (ps.map wI).sum)
    (h : BracketOf (Cx.zeroOf o) (Cx.add o) (Cx.add o) (ps.map G) v) :
    PartDotWithin p e ps.length (ps.map eR).sum (ps.map wR).sum v.re ∧ PartDotWithin p e ps.length (ps.map eI).sum (ps.map wI).sum v.im := by
  obtain ⟨b1, b2⟩ := bracketOf_parts h
  rw [O.zero, List.map_map] at b1 b2
  exact ⟨partDot_within hp hpe O.add hR rR (.inr b1), partDot_within hp hpe O.add hI rI (.inr b2)⟩

include hp hpe O in
theorem cxWay_within {pr : Cx Flt → Cx Flt → Cx Flt} {one zero v r : Cx Flt} {ps : List (Cx Flt × Cx Flt)} {eR eI wR wI : Cx Flt × Cx Flt → ℚ}
    (h1 : FltIs p e one.re 1 ∧ FltIs p e one.im 0) (h0 : FltIs p e zero.re 0 ∧ FltIs p e zero.im 0) (hv : CxFinite p e v)
    (hR : ∀ q ∈ ps, NearTerm p e (pr q.1 q.2).re (eR q) (wR q)) (hI : ∀ q ∈ ps, NearTerm p e (pr q.1 q.2).im (eI q) (wI q))
    (rR : PartDotInRange p e ps.length (ps.map wR).sum) (rI : PartDotInRange p e ps.length (ps.map wI).sum)
    (h : MatWay pr (Cx.mul o) (Cx.add o) (Cx.zeroOf o) one zero v ps r) :
    PartDotWithin p e ps.length (ps.map eR).sum (ps.map wR).sum r.re ∧ PartDotWithin p e ps.length (ps.map eI).sum (ps.map wI).sum r.im := by
  cases h with
  | spread h =>
    obtain ⟨a1, a2⟩ := adds_parts h
    rw [List.map_map] at a1 a2
    obtain ⟨z1, z2⟩ := (cx_mul_zero O h0 hv).1
    have hg := fun q hq => (cx_mul_one O h1 (z := pr q.1 q.2) ⟨(hR q hq).1, (hI q hq).1⟩).1
    exact ⟨partDot_within hp hpe O.add (fun q hq => (hR q hq).of (hg q hq).1) rR (.inl ⟨_, z1.1, z1.2, a1⟩),
      partDot_within hp hpe O.add (fun q hq => (hI q hq).of (hg q hq).2) rI (.inl ⟨_, z2.1, z2.2, a2⟩)⟩
  | @gathered s r h hr =>
    obtain ⟨w1, w2⟩ := cxBracket_within hp hpe O (G := fun q => pr q.1 q.2) hR hI rR rI (bracketOf_pairs h)
    obtain ⟨s1, s2⟩ := (cx_mul_one O h1 (z := s) ⟨w1.1, w2.1⟩).2
    obtain ⟨z1, z2⟩ := (cx_mul_zero O h0 hv).2
    have t1 := stands_add O s1.1 z1
    have t2 := stands_add O s2.1 z2
    rw [s1.2] at t1
    rw [s2.2] at t2
    rcases hr with rfl | rfl
    · exact ⟨partDotWithin_of w1 t1.1, partDotWithin_of w2 t2.1⟩
    · exact ⟨partDotWithin_of w1 t1.2.1, partDotWithin_of w2 t2.2.1⟩

include O in
theorem cxBracket_nan {zs : List (Cx Flt)} {v : Cx Flt} (h : BracketOf (Cx.zeroOf o) (Cx.add o) (Cx.add o) zs v) (hn : ∃ z ∈ zs, z.BothNaN) :
    v.BothNaN := by
  obtain ⟨b1, b2⟩ := bracketOf_parts h
  obtain ⟨z, hz, n1, n2⟩ := hn
  exact ⟨bracketOf_nan O.add b1 ⟨_, List.mem_map.2 ⟨z, hz, rfl⟩, n1⟩, bracketOf_nan O.add b2 ⟨_, List.mem_map.2 ⟨z, hz, rfl⟩, n2⟩⟩

include O in
theorem cxWay_nan {pr : Cx Flt → Cx Flt → Cx Flt} {one zero v r : Cx Flt} {ps : List (Cx Flt × Cx Flt)}
    (h : MatWay pr (Cx.mul o) (Cx.add o) (Cx.zeroOf o) one zero v ps r) (hn : ∃ q ∈ ps, (pr q.1 q.2).BothNaN) : r.BothNaN := by
  obtain ⟨q, hq, hn⟩ := hn
  cases h with
  | spread h =>
    obtain ⟨a1, a2⟩ := adds_parts h
    have := cxMul_nan O (z := one) (w := pr q.1 q.2) (.inr (.inl hn.1))
    exact ⟨adds_nan O.add a1 (.inr ⟨_, List.mem_map.2 ⟨_, List.mem_map.2 ⟨q, hq, rfl⟩, rfl⟩, this.1⟩),
      adds_nan O.add a2 (.inr ⟨_, List.mem_map.2 ⟨_, List.mem_map.2 ⟨q, hq, rfl⟩, rfl⟩, this.2⟩)⟩
  | @gathered s r h hr =>
    have hs := cxBracket_nan O (bracketOf_pairs h) ⟨_, List.mem_map.2 ⟨q, hq, rfl⟩, hn⟩
    have := cxMul_nan O (z := s) (w := one) (.inl (.inl hs.1))
    rcases hr with rfl | rfl
    · exact ⟨O.add.nan _ _ (.inl this.1), O.add.nan _ _ (.inl this.2)⟩
    · exact ⟨O.add.nan _ _ (.inr this.1), O.add.nan _ _ (.inr this.2)⟩

include hp hpe O in
/-- Whole numbers add up without error. -/
theorem partDot_exact {κ : Type} {ps : List κ} {g : κ → Flt} {ex w : κ → ℚ} {v : Flt}
    (hg : ∀ q ∈ ps, FltIs p e (g q) (ex q) ∧ (∃ n : Int, ex q = n) ∧ |ex q| ≤ w q) (hr : (ps.map w).sum ≤ 2 ^ p)
    (h : (∃ start, start.Finite p e ∧ start.val = 0 ∧ Adds o.add start (ps.map g) v) ∨ BracketOf (.num 0) o.add o.add (ps.map g) v) :
    FltIs p e v (ps.map ex).sum := by
  have hz : ∀ q ∈ ps, (g q).val = ((g q).val.num : ℚ) := by
    intro q hq
    obtain ⟨⟨-, h2⟩, ⟨n, h3⟩, -⟩ := hg q hq
    rw [h2, h3, Rat.num_intCast]
  have hs : ∀ l : List κ, (∀ q ∈ l, q ∈ ps) → ((((l.map g).map fun x => x.val.num).sum : Int) : ℚ) = (l.map ex).sum ∧
      ((((l.map g).map fun x => |x.val.num|).sum : Int) : ℚ) ≤ (l.map w).sum := by
    intro l hl
    induction l with
    | nil => simp
    | cons q l ih =>
      obtain ⟨i1, i2⟩ := ih fun q hq => hl q (List.mem_cons_of_mem _ hq)
      obtain ⟨⟨-, h2⟩, -, h4⟩ := hg q (hl q (by simp))
      have h5 := hz q (hl q (by simp))
      simp only [List.map_cons, List.sum_cons, Int.cast_add, Int.cast_abs]
      rw [← h5, i1, h2]
      exact ⟨rfl, add_le_add h4 i2⟩
  obtain ⟨s1, s2⟩ := hs ps fun _ h => h
  have hf : ∀ x ∈ ps.map g, x.Finite p e ∧ x.val = (x.val.num : ℚ) := by
    rintro x hx
    obtain ⟨q, hq, rfl⟩ := List.mem_map.1 hx
    exact ⟨(hg q hq).1.1, hz q hq⟩
  have hm : ((ps.map g).map fun x => |x.val.num|).sum ≤ 2 ^ p := by exact_mod_cast s2.trans hr
  rw [← s1]
  rcases h with ⟨start, k1, k2, h⟩ | ⟨b, hb, rfl⟩
  · obtain ⟨g1, g2, -⟩ := adds_exact hp hpe O.add k1 (z0 := 0) (by simpa using k2) h (fun x => x.val.num) hf (by simpa using hm)
    rw [zero_add] at g2
    exact ⟨g1, g2⟩
  · obtain ⟨g1, g2, -⟩ := bracket_exact hp hpe O.add b (fun x => x.val.num) (fun x hx => hf x (hb.mem_iff.1 hx))
      ((hb.map fun x => |x.val.num|).sum_eq.le.trans hm)
    rw [(hb.map fun x => x.val.num).sum_eq] at g2
    exact ⟨g1, g2⟩

/-- A term is the whole number `ex`, whose size is at most `w`. -/
def WholeTerm (p e : Nat) (v : Flt) (ex w : ℚ) : Prop := FltIs p e v ex ∧ (∃ n : Int, ex = n) ∧ |ex| ≤ w

theorem WholeTerm.of {v r : Flt} {ex w : ℚ} (h : WholeTerm p e v ex w) (hr : FltIs p e r v.val) : WholeTerm p e r ex w :=
  ⟨⟨hr.1, hr.2.trans h.1.2⟩, h.2⟩

include hp hpe O in
theorem cxBracket_exact {κ : Type} {ps : List κ} {G : κ → Cx Flt} {eR eI wR wI : κ → ℚ} {v : Cx Flt}
    (hR : ∀ q ∈ ps, WholeTerm p e (G q).re (eR q) (wR q)) (hI : ∀ q ∈ ps, WholeTerm p e (G q).im (eI q) (wI q))
    (rR : (ps.map wR).sum ≤ 2 ^ p) (rI : (ps.map wI).sum ≤ 2 ^ p)
    (h : BracketOf (Cx.zeroOf o) (Cx.add o) (Cx.add o) (ps.map G) v) : v.Equals p e (ps.map eR).sum (ps.map eI).sum := by
  obtain ⟨b1, b2⟩ := bracketOf_parts h
  rw [O.zero, List.map_map] at b1 b2
  exact ⟨partDot_exact hp hpe O hR rR (.inr b1), partDot_exact hp hpe O hI rI (.inr b2)⟩

include hp hpe O in
theorem cxWay_exact {pr : Cx Flt → Cx Flt → Cx Flt} {one zero v r : Cx Flt} {ps : List (Cx Flt × Cx Flt)} {eR eI wR wI : Cx Flt × Cx Flt → ℚ}
    (h1 : FltIs p e one.re 1 ∧ FltIs p e one.im 0) (h0 : FltIs p e zero.re 0 ∧ FltIs p e zero.im 0) (hv : CxFinite p e v)
    (hR : ∀ q ∈ ps, WholeTerm p e (pr q.1 q.2).re (eR q) (wR q)) (hI : ∀ q ∈ ps, WholeTerm p e (pr q.1 q.2).im (eI q) (wI q))
    (rR : (ps.map wR).sum ≤ 2 ^ p) (rI : (ps.map wI).sum ≤ 2 ^ p)
    (h : MatWay pr (Cx.mul o) (Cx.add o) (Cx.zeroOf o) one zero v ps r) : r.Equals p e (ps.map eR).sum (ps.map eI).sum := by
  cases h with
  | spread h =>
    obtain ⟨a1, a2⟩ := adds_parts h
    rw [List.map_map] at a1 a2
    obtain ⟨z1, z2⟩ := (cx_mul_zero O h0 hv).1
    have hg := fun q hq => (cx_mul_one O h1 (z := pr q.1 q.2) ⟨(hR q hq).1.1, (hI q hq).1.1⟩).1
    exact ⟨partDot_exact hp hpe O (fun q hq => (hR q hq).of (hg q hq).1) rR (.inl ⟨_, z1.1, z1.2, a1⟩),
      partDot_exact hp hpe O (fun q hq => (hI q hq).of (hg q hq).2) rI (.inl ⟨_, z2.1, z2.2, a2⟩)⟩
  | @gathered s r h hr =>
    obtain ⟨w1, w2⟩ := cxBracket_exact hp hpe O (G := fun q => pr q.1 q.2) hR hI rR rI (bracketOf_pairs h)
    obtain ⟨s1, s2⟩ := (cx_mul_one O h1 (z := s) ⟨w1.1, w2.1⟩).2
    obtain ⟨z1, z2⟩ := (cx_mul_zero O h0 hv).2
    have t1 := stands_add O s1.1 z1
    have t2 := stands_add O s2.1 z2
    rw [s1.2, w1.2] at t1
    rw [s2.2, w2.2] at t2
    rcases hr with rfl | rfl
    · exact ⟨t1.1, t2.1⟩
    · exact ⟨t1.2.1, t2.2.1⟩

include hp hpe O in
theorem cxMul_whole {z w : Cx Flt} (hz : z.Whole p e) (hw : w.Whole p e) (h1 : |z.re.val * w.re.val| + |z.im.val * w.im.val| ≤ 2 ^ p)
    (h2 : |z.re.val * w.im.val| + |z.im.val * w.re.val| ≤ 2 ^ p) :
    WholeTerm p e (Cx.mul o z w).re (z.re.val * w.re.val - z.im.val * w.im.val) (|z.re.val * w.re.val| + |z.im.val * w.im.val|) ∧
    WholeTerm p e (Cx.mul o z w).im (z.re.val * w.im.val + z.im.val * w.re.val) (|z.re.val * w.im.val| + |z.im.val * w.re.val|) := by
  obtain ⟨⟨f1, a, ha⟩, f2, b, hb⟩ := hz
  obtain ⟨⟨f3, c, hc⟩, f4, d, hd⟩ := hw
  rw [ha, hb, hc, hd] at h1 h2 ⊢
  have h1' : |a * c| + |b * d| ≤ 2 ^ p := by exact_mod_cast h1
  have h2' : |a * d| + |b * c| ≤ 2 ^ p := by exact_mod_cast h2
  have k1 := mul_whole hp hpe O.mul ⟨f1, ha⟩ ⟨f3, hc⟩ (by linarith [abs_nonneg (b * d)])
  have k2 := mul_whole hp hpe O.mul ⟨f2, hb⟩ ⟨f4, hd⟩ (by linarith [abs_nonneg (a * c)])
  have k3 := mul_whole hp hpe O.mul ⟨f1, ha⟩ ⟨f4, hd⟩ (by linarith [abs_nonneg (b * c)])
  have k4 := mul_whole hp hpe O.mul ⟨f2, hb⟩ ⟨f3, hc⟩ (by linarith [abs_nonneg (a * d)])
  have k5 := add_whole hp hpe O.add k3 k4 ((abs_add_le _ _).trans h2')
  have hr := representable_int (n := a * c - b * d) (p := p) (e := e) ((abs_sub _ _).trans h1') hp hpe
  obtain ⟨j1, j2⟩ := O.sub.nearest _ _ k1.1 k2.1 (by rw [k1.2, k2.2, ← Int.cast_sub]; exact rep_le_max hr)
  have j3 := j2 _ hr
  rw [k1.2, k2.2, ← Int.cast_sub, sub_self, abs_zero] at j3
  refine ⟨⟨⟨j1, ?_⟩, ⟨a * c - b * d, by push_cast; rfl⟩, abs_sub _ _⟩, ⟨⟨k5.1, ?_⟩, ⟨a * d + b * c, by push_cast; rfl⟩, abs_add_le _ _⟩⟩
  · rw [show (Cx.mul o z w).re.val = ((a * c - b * d : Int) : ℚ) from sub_eq_zero.1 (abs_nonpos_iff.1 j3)]
    push_cast
    rfl
  · rw [show (Cx.mul o z w).im.val = ((a * d + b * c : Int) : ℚ) from k5.2]
    push_cast
    rfl

theorem pair_size {κ : Type} {ps : List κ} {x y : κ → ℚ} {M : ℚ} (h : (ps.map fun q => |x q| + |y q|).sum ≤ M) {q : κ} (hq : q ∈ ps) :
    |x q| + |y q| ≤ M :=
  (List.single_le_sum (by rintro _ h; obtain ⟨q, -, rfl⟩ := List.mem_map.1 h; positivity) _ (List.mem_map.2 ⟨q, hq, rfl⟩)).trans h

include hp hpe O in
theorem cxTerm_whole {ps : List (Cx Flt × Cx Flt)} (h : WholeCxDot p e ps) {q : Cx Flt × Cx Flt} (hq : q ∈ ps) (dev : Order) :
    WholeTerm p e (factorOrder dev (Cx.mul o) (Cx.mul o) q.1 q.2).re (q.1.re.val * q.2.re.val - q.1.im.val * q.2.im.val)
      (|q.1.re.val * q.2.re.val| + |q.1.im.val * q.2.im.val|) ∧
    WholeTerm p e (factorOrder dev (Cx.mul o) (Cx.mul o) q.1 q.2).im (q.1.re.val * q.2.im.val + q.1.im.val * q.2.re.val)
      (|q.1.re.val * q.2.im.val| + |q.1.im.val * q.2.re.val|) := by
  obtain ⟨hf, h1, h2⟩ := h
  have g1 := pair_size (x := fun q : Cx Flt × Cx Flt => q.1.re.val * q.2.re.val) (y := fun q => q.1.im.val * q.2.im.val) h1 hq
  have g2 := pair_size (x := fun q : Cx Flt × Cx Flt => q.1.re.val * q.2.im.val) (y := fun q => q.1.im.val * q.2.re.val) h2 hq
  cases dev with
  | C => exact cxMul_whole hp hpe O (hf q hq).1 (hf q hq).2 g1 g2
  | F =>
    obtain ⟨l1, l2⟩ := cxMul_whole hp hpe O (hf q hq).2 (hf q hq).1
      (by rw [mul_comm q.2.re.val, mul_comm q.2.im.val]; exact g1)
      (by rw [mul_comm q.2.re.val, mul_comm q.2.im.val, add_comm |_|]; exact g2)
    rw [mul_comm q.2.re.val, mul_comm q.2.im.val] at l1 l2
    rw [add_comm |_|, add_comm (_ * _)] at l2
    exact ⟨l1, l2⟩

/-- One term of a sum that is in range. -/
theorem pair_in_range {κ : Type} {ps : List κ} {x y : κ → ℚ} (h : PartDotInRange p e ps.length (ps.map fun q => |x q| + |y q|).sum) {q : κ}
    (hq : q ∈ ps) : PairInRange p e (x q) (y q) := by
  have hu := ulp_nonneg p
  have ht := (halfTiny_pos p e).le
  have hk : (1 : ℚ) ≤ 1 + 1 / 2 ^ p := by linarith
  have hs : |x q| + |y q| ≤ (ps.map fun q => |x q| + |y q|).sum :=
    List.single_le_sum (by rintro _ h; obtain ⟨q, -, rfl⟩ := List.mem_map.1 h; positivity) _ (List.mem_map.2 ⟨q, hq, rfl⟩)
  have hn : (1 : ℚ) ≤ ps.length := by exact_mod_cast List.length_pos_of_mem hq
  unfold PartDotInRange at h
  unfold PairInRange
  refine le_trans (add_le_add ?_ ?_) h
  · have : (1 + 1 / (2 : ℚ) ^ p) ≤ (1 + 1 / 2 ^ p) ^ (ps.length + 1) := le_self_pow₀ hk (by omega)
    exact mul_le_mul this hs (by positivity) (by positivity)
  · have h1 : (1 : ℚ) ≤ (1 + 1 / 2 ^ p) ^ ps.length := one_le_pow₀ hk
    have h2 : 2 * halfTiny p e ≤ 2 * ps.length * halfTiny p e := mul_le_mul_of_nonneg_right (by linarith) ht
    refine h2.trans (le_mul_of_one_le_left (by positivity) h1)

theorem nearTerm_sub {x y : ℚ} {v : Flt} (h : PairWithin p e x y (x - y) v) : NearTerm p e v (x - y) (|x| + |y|) := ⟨h.1, abs_sub x y, h.2⟩

theorem nearTerm_add {x y : ℚ} {v : Flt} (h : PairWithin p e x y (x + y) v) : NearTerm p e v (x + y) (|x| + |y|) := ⟨h.1, abs_add_le x y, h.2⟩

include hp hpe O in
theorem cxTerm {ps : List (Cx Flt × Cx Flt)} (h : CxDotInRange p e ps) {q : Cx Flt × Cx Flt} (hq : q ∈ ps) (dev : Order) :
    NearTerm p e (factorOrder dev (Cx.mul o) (Cx.mul o) q.1 q.2).re (q.1.re.val * q.2.re.val - q.1.im.val * q.2.im.val)
      (|q.1.re.val * q.2.re.val| + |q.1.im.val * q.2.im.val|) ∧
    NearTerm p e (factorOrder dev (Cx.mul o) (Cx.mul o) q.1 q.2).im (q.1.re.val * q.2.im.val + q.1.im.val * q.2.re.val)
      (|q.1.re.val * q.2.im.val| + |q.1.im.val * q.2.re.val|) := by
  obtain ⟨hf, h1, h2⟩ := h
  have g1 := pair_in_range (x := fun q : Cx Flt × Cx Flt => q.1.re.val * q.2.re.val) (y := fun q => q.1.im.val * q.2.im.val) h1 hq
  have g2 := pair_in_range (x := fun q : Cx Flt × Cx Flt => q.1.re.val * q.2.im.val) (y := fun q => q.1.im.val * q.2.re.val) h2 hq
  cases dev with
  | C =>
    obtain ⟨k1, k2⟩ := cxMul_within hp hpe O (z := q.1) (w := q.2) ⟨(hf q hq).1, (hf q hq).2, g1, g2⟩
    exact ⟨nearTerm_sub k1, nearTerm_add k2⟩
  | F =>
    obtain ⟨k1, k2⟩ := cxMul_within hp hpe O (z := q.2) (w := q.1) ⟨(hf q hq).2, (hf q hq).1,
      by rw [mul_comm q.2.re.val, mul_comm q.2.im.val]; exact g1,
      by unfold PairInRange at g2 ⊢; rw [mul_comm q.2.re.val, mul_comm q.2.im.val, add_comm |_|]; exact g2⟩
    have l1 := nearTerm_sub k1
    have l2 := nearTerm_add k2
    rw [mul_comm q.2.re.val, mul_comm q.2.im.val] at l1 l2
    rw [add_comm |_|, add_comm (_ * _)] at l2
    exact ⟨l1, l2⟩

include O in
theorem cxTerm_nan {q : Cx Flt × Cx Flt} (h : q.1.SomeNaN ∨ q.2.SomeNaN) (dev : Order) :
    (factorOrder dev (Cx.mul o) (Cx.mul o) q.1 q.2).BothNaN := by
  cases dev with
  | C => exact cxMul_nan O h
  | F => exact cxMul_nan O h.symm

end

/-! ## Tensors -/

instance : Nonempty (Cx Flt) := ⟨⟨.num 0, .num 0⟩⟩

/-- The operations on complex numbers that a product of matrices uses. -/
def cxMatOps (o : PartOps Flt) : MatOps (Cx Flt) (Cx Flt) (Cx Flt) := ⟨Cx.mul o, Cx.mul o, Cx.add o, Cx.zeroOf o⟩

/-- The operations on complex numbers that `vecdot` uses; the first factor is conjugated. -/
def cxDotOps (o : PartOps Flt) : DotOps (Cx Flt) (Cx Flt) (Cx Flt) := ⟨Cx.zeroOf o, Cx.add o, fun x y => Cx.mul o (Cx.conj o x) y⟩

section
variable {p e : Nat} (hp : 1 ≤ p) (hpe : p ≤ e) {o : PartOps Flt} (O : IeeeParts p e o)

include hp hpe O in
/-- The product of two tensors of complex numbers in fresh storage: the error of each part of each cell, cells of
whole numbers, which have none and so are the same on every device, and cells that are not-a-number. The storage must hold finite floats before (`C42_false_fresh`). Missing: what `C42_matmul_partial`
leaves out. -/
theorem C110_matmul_partial (dev : Order) (par : Option MatPar) (hd : MatDevice par) (fresh : Nat → Cx Flt)
    (hfresh : ∀ k, (fresh k).re.Finite p e ∧ (fresh k).im.Finite p e) (a b : Tensor (Cx Flt)) (ha : a.WF) (hb : b.WF)
    (s ba bb bc rows cols : List Nat) (K : Nat) (S : MatShapes dev a.arr.shape b.arr.shape s ba bb bc rows cols K)
    (hr : ba ≠ [] → bb ≠ [] → ba.length = bb.length) (sa : a.Settled) (sb : b.Settled) :
    ∃ c w d, a.matmul (cxMatOps o) (Cx.mul o) dev par fresh b (Cx.ofNat o 1) = .ok (c, w) ∧ w.Leaves c.data d ∧
      (⟨d, c.layout⟩ : Tensor (Cx Flt)).WF ∧ c.layout = freshLayout dev s ∧ (⟨d, c.layout⟩ : Tensor (Cx Flt)).arr.shape = s ∧
      MatCells dev (fun ps r => (CxDotInRange p e ps → CxDotWithin p e ps r) ∧
          (WholeCxDot p e ps → r.Equals p e (ps.map fun q => q.1.re.val * q.2.re.val - q.1.im.val * q.2.im.val).sum
            (ps.map fun q => q.1.re.val * q.2.im.val + q.1.im.val * q.2.re.val).sum) ∧
          ((∃ q ∈ ps, q.1.SomeNaN ∨ q.2.SomeNaN) → r.BothNaN))
        a.arr b.arr ba bb bc rows cols K (⟨d, c.layout⟩ : Tensor (Cx Flt)).arr := by
  obtain ⟨c, w, d, h1, h2, h3, h4, h5, h6⟩ := C101_matmul_partial (cxMatOps o) (Cx.mul o) dev par hd fresh a b ha hb s ba bb bc rows cols K
    S hr sa sb (Cx.ofNat o 1)
  refine ⟨c, w, d, h1, h2, h3, h4, h5, fun t i j ht hi hj => ?_⟩
  obtain ⟨v, r, x, y, -, g2, g3, ⟨k, rfl⟩, g4⟩ := h6.2 t i j ht hi hj
  have zero : FltIs p e o.zero 0 := by rw [O.zero]; exact ⟨zero_finite hp hpe, rfl⟩
  have one : FltIs p e (o.ofNat 1) 1 := by simpa [FltIs] using O.ofNat 1 Nat.one_le_two_pow
  refine ⟨r, x, y, g2, g3, fun hin => ?_, fun hw => cxWay_exact hp hpe O ⟨one, zero⟩ ⟨zero, zero⟩ (hfresh k)
    (fun q hq => (cxTerm_whole hp hpe O hw hq dev).1) (fun q hq => (cxTerm_whole hp hpe O hw hq dev).2) hw.2.1 hw.2.2 g4,
    fun ⟨q, hq, hn⟩ => cxWay_nan O g4 ⟨q, hq, cxTerm_nan O hn dev⟩⟩
  exact cxWay_within hp hpe O ⟨one, zero⟩ ⟨zero, zero⟩ (hfresh k) (fun q hq => (cxTerm hp hpe O hin hq dev).1)
    (fun q hq => (cxTerm hp hpe O hin hq dev).2) hin.2.1 hin.2.2 g4

include hp hpe O in
/-- `vecdot` of complex numbers: the sum of the products with the conjugate of the first factor, on every device.
Missing: what `C43_vecdot_partial` leaves out. -/
theorem C110_vecdot_partial (N : ExactNeg p e o.neg) (dflt dev : Order) (par : Option (Bool × Scheduler)) (hd : DotDevice par)
    (a b : Tensor (Cx Flt)) (ha : a.WF) (hb : b.WF) (za : 0 ∉ a.arr.shape) (zb : 0 ∉ b.arr.shape)
    (hu : par ≠ none → a.Unshared ∧ b.Unshared) (axes : AxesPair) (SA SB : List Nat)
    (hax : DotAxes a.arr.shape.length b.arr.shape.length axes SA SB)
    (hk : takeAxes SA a.arr.shape = takeAxes SB b.arr.shape)
    (hc : Compatible dev (takeAxes (otherAxes a.arr.shape.length SA) a.arr.shape)
      (takeAxes (otherAxes b.arr.shape.length SB) b.arr.shape)) :
    ∃ r, Delivers (a.vecdot dflt dev par (cxDotOps o) b axes) r ∧ r.WF ∧
      VecdotBy dev (fun ps v => (CxDotInRange p e ps → CxInnerWithin p e ps v) ∧
        (WholeCxDot p e ps → v.Equals p e (ps.map fun q => q.1.re.val * q.2.re.val + q.1.im.val * q.2.im.val).sum
          (ps.map fun q => q.1.re.val * q.2.im.val - q.1.im.val * q.2.re.val).sum) ∧
        ((∃ q ∈ ps, q.1.SomeNaN ∨ q.2.SomeNaN) → v.BothNaN)) a.arr SA b.arr SB r.arr := by
  obtain ⟨r, h1, h2, h3⟩ := C101_vecdot_partial (cxDotOps o) dflt dev par hd a b ha hb za zb hu axes SA SB hax hk hc
  refine ⟨r, h1, h2, vecdotBy_mono h3 fun ps v h => ⟨fun hin => ?_, fun hw => ?_, fun ⟨q, hq, hn⟩ => ?_⟩⟩
  · have hb := bracketOf_pairs h
    have term : ∀ q ∈ ps, NearTerm p e (Cx.mul o (Cx.conj o q.1) q.2).re (q.1.re.val * q.2.re.val + q.1.im.val * q.2.im.val)
          (|q.1.re.val * q.2.re.val| + |q.1.im.val * q.2.im.val|) ∧
        NearTerm p e (Cx.mul o (Cx.conj o q.1) q.2).im (q.1.re.val * q.2.im.val - q.1.im.val * q.2.re.val)
          (|q.1.re.val * q.2.im.val| + |q.1.im.val * q.2.re.val|) := by
      intro q hq
      obtain ⟨hf, h1, h2⟩ := hin
      have g1 := pair_in_range (x := fun q : Cx Flt × Cx Flt => q.1.re.val * q.2.re.val) (y := fun q => q.1.im.val * q.2.im.val) h1 hq
      have g2 := pair_in_range (x := fun q : Cx Flt × Cx Flt => q.1.re.val * q.2.im.val) (y := fun q => q.1.im.val * q.2.re.val) h2 hq
      obtain ⟨n1, n2⟩ := N.exact _ (hf q hq).1.2
      unfold PairInRange at g1 g2
      obtain ⟨k1, k2⟩ := cxMul_within hp hpe O (z := Cx.conj o q.1) (w := q.2) ⟨⟨(hf q hq).1.1, n1⟩, (hf q hq).2,
        by unfold PairInRange; simp only [Cx.conj, n2, neg_mul, abs_neg]; exact g1,
        by unfold PairInRange; simp only [Cx.conj, n2, neg_mul, abs_neg]; exact g2⟩
      have l1 := nearTerm_sub k1
      have l2 := nearTerm_add k2
      simp only [Cx.conj, n2, neg_mul, abs_neg, sub_neg_eq_add, ← sub_eq_add_neg] at l1 l2
      exact ⟨l1, l2⟩
    exact cxBracket_within hp hpe O (G := fun q : Cx Flt × Cx Flt => Cx.mul o (Cx.conj o q.1) q.2) (fun q hq => (term q hq).1) (fun q hq => (term q hq).2)
      hin.2.1 hin.2.2 hb
  · have term : ∀ q ∈ ps, WholeTerm p e (Cx.mul o (Cx.conj o q.1) q.2).re (q.1.re.val * q.2.re.val + q.1.im.val * q.2.im.val)
          (|q.1.re.val * q.2.re.val| + |q.1.im.val * q.2.im.val|) ∧
        WholeTerm p e (Cx.mul o (Cx.conj o q.1) q.2).im (q.1.re.val * q.2.im.val - q.1.im.val * q.2.re.val)
          (|q.1.re.val * q.2.im.val| + |q.1.im.val * q.2.re.val|) := by
      intro q hq
      obtain ⟨hf, h1, h2⟩ := hw
      have g1 := pair_size (x := fun q : Cx Flt × Cx Flt => q.1.re.val * q.2.re.val) (y := fun q => q.1.im.val * q.2.im.val) h1 hq
      have g2 := pair_size (x := fun q : Cx Flt × Cx Flt => q.1.re.val * q.2.im.val) (y := fun q => q.1.im.val * q.2.re.val) h2 hq
      obtain ⟨f1, f2, m, hm⟩ := (hf q hq).1
      obtain ⟨n1, n2⟩ := N.exact _ f2
      obtain ⟨l1, l2⟩ := cxMul_whole hp hpe O (z := Cx.conj o q.1) (w := q.2) ⟨f1, n1, -m, by rw [Cx.conj]; simp only [n2, hm]; push_cast; rfl⟩ (hf q hq).2
        (by simp only [Cx.conj, n2, neg_mul, abs_neg]; exact g1)
        (by simp only [Cx.conj, n2, neg_mul, abs_neg]; exact g2)
      simp only [Cx.conj, n2, neg_mul, abs_neg, sub_neg_eq_add, ← sub_eq_add_neg] at l1 l2
      exact ⟨l1, l2⟩
    exact cxBracket_exact hp hpe O (G := fun q : Cx Flt × Cx Flt => Cx.mul o (Cx.conj o q.1) q.2) (fun q hq => (term q hq).1)
      (fun q hq => (term q hq).2) hw.2.1 hw.2.2 (bracketOf_pairs h)
  · refine cxBracket_nan O (bracketOf_pairs h) ⟨_, List.mem_map.2 ⟨q, hq, rfl⟩, cxMul_nan O (hn.imp (fun h => ?_) id)⟩
    exact h.imp id (N.nan _)

end

/-- The modelled change of sign is exact, for every format. -/
theorem C110_neg_exact (p e : Nat) : ExactNeg p e fltNeg where
  exact := by
    rintro x ⟨q, h1, h2⟩
    cases x with
    | nan s => cases h1
    | inf s => cases h1
    | negZero =>
      cases h1
      exact ⟨⟨0, rfl, h2⟩, by simp [fltNeg, Flt.val, Flt.rat?]⟩
    | num y =>
      obtain rfl : y = q := by simpa [Flt.rat?] using h1
      by_cases h0 : y = 0
      · subst h0
        exact ⟨⟨0, by simp [fltNeg, Flt.rat?], h2⟩, by simp [fltNeg, Flt.val, Flt.rat?]⟩
      · exact ⟨⟨-y, by simp [fltNeg, h0, Flt.rat?], representable_neg h2⟩, by simp [fltNeg, h0, Flt.val, Flt.rat?]⟩
  nan := by
    rintro x ⟨s, rfl⟩
    exact ⟨!s, rfl⟩

/-! ## Cases -/

/-- `[[1 + 3 i, 3], [-2 i, 1]]` and `[[1, i], [2, 1 - i]]`, whose product is `[[7 + 3 i, -2 i], [2 - 2 i, 3 - i]]`. -/
def cxLeft : Tensor (Cx Flt) :=
  ⟨[⟨.num 1, .num 3⟩, ⟨.num 3, .num 0⟩, ⟨.num 0, .num (-2)⟩, ⟨.num 1, .num 0⟩], ⟨[⟨2, 2⟩, ⟨2, 1⟩], 0⟩⟩
def cxRight : Tensor (Cx Flt) :=
  ⟨[⟨.num 1, .num 0⟩, ⟨.num 0, .num 1⟩, ⟨.num 2, .num 0⟩, ⟨.num 1, .num (-1)⟩], ⟨[⟨2, 2⟩, ⟨2, 1⟩], 0⟩⟩

example (par : Option MatPar) (hd : MatDevice par) := C110_matmul_partial (p := 53) (e := 1023) (by decide) (by decide)
  (C110_ops_nearest (by decide) (by decide) id fun x _ => x) .C par hd (fun _ => ⟨.num 0, .num 0⟩)
  (fun _ => ⟨zero_finite (by decide) (by decide), zero_finite (by decide) (by decide)⟩)
  cxLeft cxRight ⟨by decide, rfl⟩ ⟨by decide, rfl⟩ [2, 2] [] [] [] [2] [2] 2
  ⟨rfl, rfl, rfl, by decide, by decide, by decide, by decide, ⟨rfl, by decide⟩⟩ (by decide)
  (fun h => absurd h (by decide)) (fun h => absurd h (by decide))

example : (cxLeft.matmul (cxMatOps doubleParts) (Cx.mul doubleParts) .C none (fun _ => ⟨.num 0, .num 0⟩) cxRight (Cx.ofNat doubleParts 1)).map (·.2) =
    .ok (.done [⟨.num 7, .num 3⟩, ⟨.num 0, .num (-2)⟩, ⟨.num 2, .num (-2)⟩, ⟨.num 3, .num (-1)⟩]) := doneIs (by decide +kernel)

example (par : Option (Bool × Scheduler)) (hd : DotDevice par) := C110_vecdot_partial (p := 53) (e := 1023) (by decide) (by decide)
  (C110_ops_nearest (by decide) (by decide) id fun x _ => x) (C110_neg_exact 53 1023) .C .C par hd
  cxLeft cxRight ⟨by decide, rfl⟩ ⟨by decide, rfl⟩ (by decide) (by decide)
  (fun _ => ⟨unshared_of ⟨by decide, rfl⟩ (by decide), unshared_of ⟨by decide, rfl⟩ (by decide)⟩) .none [1] [1] ⟨by decide, by decide, rfl, rfl⟩
  rfl (compatible_of (s := [2]) ⟨rfl, by decide⟩)

theorem cxPairs_range : CxDotInRange 4 20 [(⟨.num 1, .num 3⟩, ⟨.num 1, .num 0⟩), (⟨.num 3, .num 0⟩, ⟨.num 2, .num 0⟩)] := by
  have f0 : (Flt.num 0).Finite 4 20 := zero_finite (by decide) (by decide)
  have f1 : (Flt.num 1).Finite 4 20 := ⟨1, rfl, 1, 0, by decide, by decide, by decide, by norm_num⟩
  have f2 : (Flt.num 2).Finite 4 20 := ⟨2, rfl, 2, 0, by decide, by decide, by decide, by norm_num⟩
  have f3 : (Flt.num 3).Finite 4 20 := ⟨3, rfl, 3, 0, by decide, by decide, by decide, by norm_num⟩
  refine ⟨by simp [f0, f1, f2, f3], ?_, ?_⟩
  all_goals norm_num [PartDotInRange, evenSize, oddSize, Flt.val, Flt.rat?, halfTiny, maxFinite, abs_of_pos]

example : WholeCxDot 4 20 [(⟨.num 1, .num 3⟩, ⟨.num 1, .num 0⟩), (⟨.num 3, .num 0⟩, ⟨.num 2, .num 0⟩)] := by
  have h := cxPairs_range.1
  refine ⟨fun q hq => ?_, by norm_num [evenSize, Flt.val, Flt.rat?], by norm_num [oddSize, Flt.val, Flt.rat?]⟩
  obtain ⟨⟨h1, h2⟩, h3, h4⟩ := h q hq
  simp only [List.mem_cons, List.not_mem_nil, or_false] at hq
  rcases hq with rfl | rfl
  · exact ⟨⟨⟨h1, 1, by norm_num [Flt.val, Flt.rat?]⟩, h2, 3, by norm_num [Flt.val, Flt.rat?]⟩, ⟨h3, 1, by norm_num [Flt.val, Flt.rat?]⟩,
      h4, 0, by norm_num [Flt.val, Flt.rat?]⟩
  · exact ⟨⟨⟨h1, 3, by norm_num [Flt.val, Flt.rat?]⟩, h2, 0, by norm_num [Flt.val, Flt.rat?]⟩, ⟨h3, 2, by norm_num [Flt.val, Flt.rat?]⟩,
      h4, 0, by norm_num [Flt.val, Flt.rat?]⟩

end Rstsr
