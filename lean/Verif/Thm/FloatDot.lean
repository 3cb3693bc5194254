import Verif.Proof.FloatDot
import Verif.Thm.Matmul
import Verif.Thm.FloatSum
/-!
# C101: products of matrices of floats

C42 assumes a commutative semiring. Here nothing is assumed of the operations: whatever the device, the schedule of
the threads and the layouts, every pair of factors of a cell is multiplied once, and the products are put together in
one of two ways. Error bounds for floats follow.
-/
namespace Rstsr
open Spec
variable {α β γ : Type}

/-- The product the devices compute: a column-major device multiplies the right factor by the left one. -/
def factorOrder (dev : Order) (mul : α → β → γ) (mul' : β → α → γ) : α → β → γ :=
  match dev with
  | .C => mul
  | .F => fun x y => mul' y x

theorem matWay_swap {mul : α → β → γ} {times plus : γ → γ → γ} {zero alpha beta v r : γ} {ps : List (α × β)}
    (h : MatWay mul times plus zero alpha beta v ps r) :
    MatWay (fun y x => mul x y) times plus zero alpha beta v (ps.map Prod.swap) r := by
  cases h with
  | spread h =>
    refine .spread ?_
    rw [List.map_map]
    exact h
  | gathered h hr => exact .gathered (bracketOf_map Prod.swap (fun _ _ => rfl) h) hr

/-- `matmul_from` for operations that obey no laws, with operands and results of every layout, serially and under
every schedule of the threads. Missing: what `C42_matmul_from_partial` leaves out. -/
theorem C101_matmul_from_partial [Nonempty α] [Nonempty β] (O : MatOps α β γ) (mul' : β → α → γ) (dev : Order) (par : Option MatPar)
    (hp : MatDevice par) (a : Tensor α) (b : Tensor β) (c : Tensor γ) (ha : a.WF) (hb : b.WF) (hc : c.WF)
    (ba bb bc rows cols : List Nat) (K : Nat) (S : MatShapes dev a.arr.shape b.arr.shape c.arr.shape ba bb bc rows cols K)
    (hr : ba ≠ [] → bb ≠ [] → ba.length = bb.length)
    (h0 : par = none → rows = [] → cols = [] → c.layout.offset = 0)
    (hz : 0 ∉ c.arr.shape → (0 : Int) ∉ c.layout.stride) (sa : a.Settled) (sb : b.Settled) (sc : c.Settled) (alpha beta : γ) :
    ∃ w d, c.matmulFrom O mul' dev par a b alpha beta = .ok w ∧ w.Leaves c.data d ∧
      (⟨d, c.layout⟩ : Tensor γ).WF ∧
      MatUpdateBy dev (fun ps v r => MatWay (factorOrder dev O.mul mul') O.times O.plus O.zero alpha beta v ps r) a.arr b.arr
        ba bb bc rows cols K c.arr (⟨d, c.layout⟩ : Tensor γ).arr ∧
      ChangedOnly (Addressed c.layout.stride c.layout.offset c.layout.shape) c.data d := by
  have sa := ha.fit.settled sa
  have sb := hb.fit.settled sb
  have sc := hc.fit.settled sc
  refine lift_matmulBy _ dev a b c ha hb hc ba bb bc rows cols K S hz _ ?_ ?_
  · rintro rfl X Y J
    exact rowMajorWay O par hp J sa sb sc hr h0 alpha beta
  · rintro rfl X Y J
    obtain ⟨w, d, cell, h1, h2, h3, h4⟩ := rowMajorWay (O.swap mul') par hp J sb.rev sa.rev sc.rev
      (fun e1 e2 => by simpa using (hr (by simpa using e2) (by simpa using e1)).symm)
      (fun e1 e2 e3 => h0 e1 e3 e2) alpha beta
    refine ⟨w, d, cell, h1, h2, fun t i j v => ?_, h4⟩
    have := matWay_swap (h3 t i j v)
    rw [List.map_map] at this
    exact this

/-- `matmul`, `%`: the product in fresh storage, for operations that obey no laws. What the fresh storage held is
read, multiplied by zero and added. -/
theorem C101_matmul_partial [Nonempty α] [Nonempty β] (O : MatOps α β γ) (mul' : β → α → γ) (dev : Order) (par : Option MatPar)
    (hp : MatDevice par) (fresh : Nat → γ) (a : Tensor α) (b : Tensor β) (ha : a.WF) (hb : b.WF)
    (s ba bb bc rows cols : List Nat) (K : Nat) (S : MatShapes dev a.arr.shape b.arr.shape s ba bb bc rows cols K)
    (hr : ba ≠ [] → bb ≠ [] → ba.length = bb.length) (sa : a.Settled) (sb : b.Settled) (alpha : γ) :
    ∃ c w d, a.matmul O mul' dev par fresh b alpha = .ok (c, w) ∧ w.Leaves c.data d ∧
      (⟨d, c.layout⟩ : Tensor γ).WF ∧ c.layout = freshLayout dev s ∧ (⟨d, c.layout⟩ : Tensor γ).arr.shape = s ∧
      MatUpdateBy dev (fun ps v r => (∃ k, v = fresh k) ∧
          MatWay (factorOrder dev O.mul mul') O.times O.plus O.zero alpha O.zero v ps r) a.arr b.arr
        ba bb bc rows cols K c.arr (⟨d, c.layout⟩ : Tensor γ).arr := by
  obtain ⟨cfg, e1, e2⟩ := (C41_accept_iff a.layout b.layout (freshLayout dev s) dev).2 ⟨s, ba, bb, bc, rows, cols, K, S, rfl⟩
  have T := freshLayout_tight dev s
  obtain ⟨mn, hbd⟩ := T.bounds
  have hc : (⟨(List.range (freshLayout dev s).size).map fresh, freshLayout dev s⟩ : Tensor γ).WF := T.wf (by simp)
  have hs := freshLayout_shape dev s
  have h0 : (freshLayout dev s).offset = 0 := by cases dev <;> rfl
  obtain ⟨w, d, k1, k2, k3, k4, -⟩ := C101_matmul_from_partial O mul' dev par hp a b _ ha hb hc ba bb bc rows cols K
    (by show MatShapes dev _ _ (freshLayout dev s).shape _ _ _ _ _ _; rw [hs]; exact S) hr (fun _ _ _ => h0)
    (fun hz => freshLayout_nonzero dev s (by rw [← hs]; exact hz)) sa sb (fun _ => freshLayout_settled dev s) alpha O.zero
  refine ⟨_, w, d, ?_, k2, k3, rfl, hs, k4.1, ?_⟩
  · unfold Tensor.matmul
    rw [e1, ok_bind, e2, hbd, ok_bind]
    simp only [Int.toNat_natCast]
    rw [k1]
    rfl
  · intro t i j ht hi hj
    obtain ⟨v, r, x, y, g1, g2, g3, g4⟩ := k4.2 t i j ht hi hj
    refine ⟨v, r, x, y, g1, g2, g3, ?_, g4⟩
    simp only [Tensor.arr, element] at g1
    split at g1
    · cases g1
    · rw [List.getElem?_map, Option.map_eq_some_iff] at g1
      obtain ⟨k, -, rfl⟩ := g1
      exact ⟨k, rfl⟩

/-! ## Floats -/

section
variable {p e : Nat} (hp : 1 ≤ p) (hpe : p ≤ e) {add mul : Flt → Flt → Flt} (A : NearestAdd p e add) (M : NearestMul p e mul)

include hp hpe A M in
theorem matWay_within {mul' : Flt → Flt → Flt} (M' : NearestMul p e mul') {one zero v r : Flt} {ps : List (Flt × Flt)}
    (h1 : one.Finite p e ∧ one.val = 1) (h0 : zero.Finite p e ∧ zero.val = 0) (hv : v.Finite p e)
    (h : MatWay mul' mul add (.num 0) one zero v ps r) (hr : DotInRange p e ps) : DotWithin p e ps r := by
  obtain ⟨hf, hT⟩ := hr
  obtain ⟨r1, r2⟩ := range_facts hT
  have hm : ∀ q ∈ ps, (mul' q.1 q.2).Finite p e ∧
      |(mul' q.1 q.2).val - q.1.val * q.2.val| ≤ |q.1.val * q.2.val| * (1 / 2 ^ p) + halfTiny p e :=
    fun q hq => mul_err hp hpe M' (hf q hq).1 (hf q hq).2 (r1 q hq)
  cases h with
  | spread h =>
    have hg : ∀ q ∈ ps, (mul one (mul' q.1 q.2)).Finite p e ∧
        |(mul one (mul' q.1 q.2)).val - q.1.val * q.2.val| ≤ |q.1.val * q.2.val| * (1 / 2 ^ p) + halfTiny p e := by
      intro q hq
      obtain ⟨k1, k2⟩ := (mul_one_exact M (hm q hq).1 h1.1 h1.2).1
      exact ⟨k1, by rw [k2]; exact (hm q hq).2⟩
    have hb := terms_bound (g := fun q => mul one (mul' q.1 q.2)) fun q hq => (hg q hq).2
    obtain ⟨z1, z2⟩ := (mul_zero_exact M hv h0.1 h0.2).1
    have ha := adds_approx hp hpe A r2 z1 z2 h
      (by rintro x hx; obtain ⟨q, hq, rfl⟩ := List.mem_map.1 hx; exact (hg q hq).1) (by simp) hb.2
    exact ⟨ha.fin, dot_within (fun q hq => (hg q hq).2) ha⟩
  | @gathered s r h hr =>
    have hb := terms_bound (g := fun q => mul' q.1 q.2) fun q hq => (hm q hq).2
    obtain ⟨b, hp1, rfl⟩ := bracketOf_pairs h
    have e1 := hp1.length_eq
    have e2 := (hp1.map Flt.val).sum_eq
    have e3 := (hp1.map fun x => |x.val|).sum_eq
    have ha := bracket_approx hp hpe A r2 b
      (by intro x hx; obtain ⟨q, hq, rfl⟩ := List.mem_map.1 (hp1.mem_iff.1 hx); exact (hm q hq).1)
      (by rw [e1]; simp) (e3.le.trans hb.2)
    rw [e1, e2, e3] at ha
    obtain ⟨k1, k2⟩ := (mul_one_exact M ha.fin h1.1 h1.2).2
    obtain ⟨z1, z2⟩ := (mul_zero_exact M hv h0.1 h0.2).2
    have hfin : r.Finite p e ∧ r.val = (b.value (.num 0) add add).val := by
      rcases hr with rfl | rfl
      · have hs : (mul (b.value (.num 0) add add) one).val + (mul v zero).val = (b.value (.num 0) add add).val := by rw [k2, z2, add_zero]
        obtain ⟨g1, g2⟩ := nearest_exact A k1 z1 (by rw [hs]; exact rep_le_max (representable_val ha.fin))
          (by rw [hs]; exact representable_val ha.fin)
        exact ⟨g1, g2.trans hs⟩
      · have hs : (mul v zero).val + (mul (b.value (.num 0) add add) one).val = (b.value (.num 0) add add).val := by rw [k2, z2, zero_add]
        obtain ⟨g1, g2⟩ := nearest_exact A z1 k1 (by rw [hs]; exact rep_le_max (representable_val ha.fin))
          (by rw [hs]; exact representable_val ha.fin)
        exact ⟨g1, g2.trans hs⟩
    refine ⟨hfin.1, ?_⟩
    rw [hfin.2]
    exact dot_within (fun q hq => (hm q hq).2) ha

include A M in
theorem matWay_nan {mul' : Flt → Flt → Flt} (M' : NearestMul p e mul') {alpha beta v r zero : Flt} {ps : List (Flt × Flt)}
    (h : MatWay mul' mul add zero alpha beta v ps r) (hn : ∃ q ∈ ps, q.1.IsNaN ∨ q.2.IsNaN) : r.IsNaN := by
  obtain ⟨q, hq, hn⟩ := hn
  have hm := M'.nan _ _ hn
  cases h with
  | spread h => exact adds_nan A h (.inr ⟨_, List.mem_map.2 ⟨q, hq, rfl⟩, M.nan _ _ (.inr hm)⟩)
  | gathered h hr =>
    have := bracketOf_nan A (bracketOf_pairs h) ⟨_, List.mem_map.2 ⟨q, hq, rfl⟩, hm⟩
    have := M.nan _ alpha (.inl this)
    rcases hr with rfl | rfl
    · exact A.nan _ _ (.inl this)
    · exact A.nan _ _ (.inr this)

theorem val_num {x : Flt} {z : Int} (h : x.val = z) : x.val.num = z := by rw [h]; exact Rat.num_intCast z

include hp hpe in
theorem mul_whole (M : NearestMul p e mul) {x y : Flt} {a b : Int} (hx : x.Finite p e ∧ x.val = a) (hy : y.Finite p e ∧ y.val = b)
    (hb : |a * b| ≤ 2 ^ p) : (mul x y).Finite p e ∧ (mul x y).val = ((a * b : Int) : ℚ) := by
  have he : x.val * y.val = ((a * b : Int) : ℚ) := by rw [hx.2, hy.2]; push_cast; rfl
  have := mul_exact M hx.1 hy.1 (by rw [he]; exact representable_int hb hp hpe)
  rwa [he] at this

include hp hpe in
theorem add_whole (A : NearestAdd p e add) {x y : Flt} {a b : Int} (hx : x.Finite p e ∧ x.val = a) (hy : y.Finite p e ∧ y.val = b)
    (hb : |a + b| ≤ 2 ^ p) : (add x y).Finite p e ∧ (add x y).val = ((a + b : Int) : ℚ) := by
  have he : x.val + y.val = ((a + b : Int) : ℚ) := by rw [hx.2, hy.2]; push_cast; rfl
  have hr := representable_int (e := e) hb hp hpe
  have := nearest_exact A hx.1 hy.1 (by rw [he]; exact rep_le_max hr) (by rw [he]; exact hr)
  rwa [he] at this

theorem abs_sum_le (l : List Int) : |l.sum| ≤ (l.map fun x => |x|).sum := by
  induction l with
  | nil => simp
  | cons x l ih => simp only [List.sum_cons, List.map_cons]; exact (abs_add_le _ _).trans (by linarith)

include hp hpe A M in
theorem matWay_exact {mul' : Flt → Flt → Flt} (M' : NearestMul p e mul') {alpha beta v r : Flt} {ps : List (Flt × Flt)}
    (h : MatWay mul' mul add (.num 0) alpha beta v ps r) {z : Flt → Int} {a w : Int} (za : alpha.Finite p e ∧ alpha.val = a)
    (hz : ∀ q ∈ ps, (q.1.Finite p e ∧ q.1.val = z q.1) ∧ (q.2.Finite p e ∧ q.2.val = z q.2))
    (w1 : (mul beta v).Finite p e ∧ (mul beta v).val = w) (w2 : (mul v beta).Finite p e ∧ (mul v beta).val = w)
    (hs : (ps.map fun q => |z q.1 * z q.2|).sum ≤ 2 ^ p) (hb : |w| + |a| * (ps.map fun q => |z q.1 * z q.2|).sum ≤ 2 ^ p) :
    r.Finite p e ∧ r.val = w + a * (ps.map fun q => q.1.val * q.2.val).sum := by
  have nn : ∀ q : Flt × Flt, 0 ≤ |z q.1 * z q.2| := fun q => abs_nonneg _
  have le : ∀ q ∈ ps, |z q.1 * z q.2| ≤ (ps.map fun q => |z q.1 * z q.2|).sum := fun q hq =>
    List.single_le_sum (by rintro _ h; obtain ⟨q, -, rfl⟩ := List.mem_map.1 h; exact nn q) _ (List.mem_map.2 ⟨q, hq, rfl⟩)
  have hsum : (ps.map fun q => q.1.val * q.2.val).sum = (((ps.map fun q => z q.1 * z q.2).sum : Int) : ℚ) := by
    have : ∀ l : List (Flt × Flt), (∀ q ∈ l, q.1.val = z q.1 ∧ q.2.val = z q.2) →
        (l.map fun q => q.1.val * q.2.val).sum = (((l.map fun q => z q.1 * z q.2).sum : Int) : ℚ) := by
      intro l hl
      induction l with
      | nil => simp
      | cons q l ih =>
        simp only [List.map_cons, List.sum_cons, Int.cast_add, Int.cast_mul]
        rw [ih fun q hq => hl q (List.mem_cons_of_mem _ hq), (hl q (by simp)).1, (hl q (by simp)).2]
    exact this ps fun q hq => ⟨(hz q hq).1.2, (hz q hq).2.2⟩
  have hm : ∀ q ∈ ps, (mul' q.1 q.2).Finite p e ∧ (mul' q.1 q.2).val = ((z q.1 * z q.2 : Int) : ℚ) := fun q hq =>
    mul_whole hp hpe M' (hz q hq).1 (hz q hq).2 ((le q hq).trans hs)
  have has : |a| * (ps.map fun q => |z q.1 * z q.2|).sum ≤ 2 ^ p := by
    have := abs_nonneg w
    linarith
  rw [hsum]
  cases h with
  | spread h =>
    have hg : ∀ q ∈ ps, (mul alpha (mul' q.1 q.2)).Finite p e ∧
        (mul alpha (mul' q.1 q.2)).val = ((a * (z q.1 * z q.2) : Int) : ℚ) := fun q hq =>
      mul_whole hp hpe M za (hm q hq) (by
        rw [abs_mul]
        exact (mul_le_mul_of_nonneg_left (le q hq) (abs_nonneg _)).trans has)
    have e1 : ∀ l : List (Flt × Flt), (∀ q ∈ l, q ∈ ps) → ((l.map fun q => mul alpha (mul' q.1 q.2)).map fun x => x.val.num).sum =
        a * (l.map fun q => z q.1 * z q.2).sum ∧
        ((l.map fun q => mul alpha (mul' q.1 q.2)).map fun x => |x.val.num|).sum = |a| * (l.map fun q => |z q.1 * z q.2|).sum := by
      intro l hl
      induction l with
      | nil => simp
      | cons q l ih =>
        obtain ⟨i1, i2⟩ := ih fun q hq => hl q (List.mem_cons_of_mem _ hq)
        simp only [List.map_cons, List.sum_cons]
        rw [i1, i2, val_num (hg q (hl q (by simp))).2, abs_mul (a)]
        constructor <;> ring
    obtain ⟨f1, f2⟩ := e1 ps fun _ h => h
    have := adds_exact hp hpe A w1.1 w1.2 h (fun x => x.val.num)
      (by
        intro x hx
        obtain ⟨q, hq, rfl⟩ := List.mem_map.1 hx
        refine ⟨(hg q hq).1, ?_⟩
        rw [val_num (hg q hq).2]
        exact (hg q hq).2)
      (by rw [f2]; exact hb)
    refine ⟨this.1, this.2.1.trans ?_⟩
    rw [f1]
    push_cast
    ring
  | @gathered s r h hr =>
    obtain ⟨b, hp1, rfl⟩ := bracketOf_pairs h
    have e1 : ∀ l : List (Flt × Flt), (∀ q ∈ l, q ∈ ps) → ((l.map fun q => mul' q.1 q.2).map fun x => x.val.num).sum =
        (l.map fun q => z q.1 * z q.2).sum ∧
        ((l.map fun q => mul' q.1 q.2).map fun x => |x.val.num|).sum = (l.map fun q => |z q.1 * z q.2|).sum := by
      intro l hl
      induction l with
      | nil => simp
      | cons q l ih =>
        obtain ⟨i1, i2⟩ := ih fun q hq => hl q (List.mem_cons_of_mem _ hq)
        simp only [List.map_cons, List.sum_cons]
        rw [i1, i2, val_num (hm q (hl q (by simp))).2]
        exact ⟨rfl, rfl⟩
    obtain ⟨f1, f2⟩ := e1 ps fun _ h => h
    obtain ⟨k1, k2, -⟩ := bracket_exact hp hpe A b (fun x => x.val.num)
      (by
        intro x hx
        obtain ⟨q, hq, rfl⟩ := List.mem_map.1 (hp1.mem_iff.1 hx)
        refine ⟨(hm q hq).1, ?_⟩
        rw [val_num (hm q hq).2]
        exact (hm q hq).2)
      (by rw [(hp1.map fun x => |x.val.num|).sum_eq, f2]; exact hs)
    rw [(hp1.map fun x => x.val.num).sum_eq, f1] at k2
    have hS : |(ps.map fun q => z q.1 * z q.2).sum| ≤ (ps.map fun q => |z q.1 * z q.2|).sum := by
      have := abs_sum_le (ps.map fun q => z q.1 * z q.2)
      rwa [List.map_map] at this
    have hSa : |(ps.map fun q => z q.1 * z q.2).sum * a| ≤ |a| * (ps.map fun q => |z q.1 * z q.2|).sum := by
      rw [abs_mul, mul_comm]
      exact mul_le_mul_of_nonneg_left hS (abs_nonneg _)
    have g1 := mul_whole hp hpe M ⟨k1, k2⟩ za (hSa.trans has)
    have hle : |(ps.map fun q => z q.1 * z q.2).sum * a + w| ≤ 2 ^ p := by
      refine (abs_add_le _ _).trans ?_
      linarith
    rcases hr with rfl | rfl
    · have := add_whole hp hpe A g1 w2 hle
      refine ⟨this.1, this.2.trans ?_⟩
      push_cast
      ring
    · have := add_whole hp hpe A w2 g1 (by rw [add_comm]; exact hle)
      refine ⟨this.1, this.2.trans ?_⟩
      push_cast
      ring

include hp hpe A M in
theorem matWay_whole {mul' : Flt → Flt → Flt} (M' : NearestMul p e mul') {alpha beta v r : Flt} {ps : List (Flt × Flt)}
    (h : MatWay mul' mul add (.num 0) alpha beta v ps r) (hw : WholeProducts p e alpha beta v ps) :
    r.Finite p e ∧ r.val = beta.val * v.val + alpha.val * (ps.map fun q => q.1.val * q.2.val).sum := by
  obtain ⟨z, hz, hq, hs, hb⟩ := hw
  have za := hz alpha (by simp)
  have zb := hz beta (by simp)
  have zv := hz v (by simp)
  have hbv : |z beta * z v| ≤ 2 ^ p := by
    have : 0 ≤ |z alpha| * (ps.map fun q => |z q.1 * z q.2|).sum :=
      mul_nonneg (abs_nonneg _) (List.sum_nonneg (by rintro _ h; obtain ⟨q, -, rfl⟩ := List.mem_map.1 h; exact abs_nonneg _))
    linarith
  have := matWay_exact hp hpe A M M' h za hq (mul_whole hp hpe M zb zv hbv)
    (by rw [mul_comm] at hbv ⊢; exact mul_whole hp hpe M zv zb hbv) hs hb
  rw [za.2, zb.2, zv.2]
  push_cast at this
  exact this

include hp hpe A M in
theorem matWay_dot {mul' : Flt → Flt → Flt} (M' : NearestMul p e mul') {one zero v r : Flt} {ps : List (Flt × Flt)}
    (h1 : one.Finite p e ∧ one.val = 1) (h0 : zero.Finite p e ∧ zero.val = 0) (hv : v.Finite p e)
    (h : MatWay mul' mul add (.num 0) one zero v ps r) (hw : WholeDot p e ps) :
    r.Finite p e ∧ r.val = (ps.map fun q => q.1.val * q.2.val).sum := by
  obtain ⟨z, hz, hs⟩ := hw
  obtain ⟨g1, g2⟩ := mul_zero_exact M hv h0.1 h0.2
  have := matWay_exact hp hpe A M M' h (a := 1) (w := 0) (by simpa using h1) hz (by simpa using g1) (by simpa using g2) hs (by simpa using hs)
  simpa using this

end

/-! ## Products of matrices of floats -/

instance : Nonempty Flt := ⟨.num 0⟩

section
variable {p e : Nat} (hp : 1 ≤ p) (hpe : p ≤ e) {add mul : Flt → Flt → Flt} (A : NearestAdd p e add) (M : NearestMul p e mul)

/-- The operations of one type of floats. -/
def floatOps (add mul : Flt → Flt → Flt) : MatOps Flt Flt Flt := ⟨mul, mul, add, .num 0⟩

theorem matUpdateBy_mono {o : Order} {P Q : List (α × β) → γ → γ → Prop} {A : Arr α} {B : Arr β}
    {batchA batchB batch rows cols : List Nat} {K : Nat} {C D : Arr γ} (h : MatUpdateBy o P A B batchA batchB batch rows cols K C D)
    (hPQ : ∀ ps v r, P ps v r → Q ps v r) : MatUpdateBy o Q A B batchA batchB batch rows cols K C D :=
  ⟨h.1, fun t i j ht hi hj =>
    let ⟨v, r, x, y, g1, g2, g3, g4⟩ := h.2 t i j ht hi hj
    ⟨v, r, x, y, g1, g2, g3, hPQ _ _ _ g4⟩⟩

theorem factorOrder_nearest (M : NearestMul p e mul) (dev : Order) : NearestMul p e (factorOrder dev mul mul) := by
  cases dev with
  | C => exact M
  | F => exact NearestMul_flip M

include hp hpe A M in
/-- The product of two tensors of floats in fresh storage, for every addition and multiplication that round to a
nearest float: the error of each cell, cells without error, and cells that are not-a-number. The storage must hold
finite floats before (`C42_false_fresh`). Missing: what `C42_matmul_partial` leaves out. -/
theorem C101_float_matmul_partial (dev : Order) (par : Option MatPar) (hd : MatDevice par) (fresh : Nat → Flt)
    (hfresh : ∀ k, (fresh k).Finite p e) (a b : Tensor Flt) (ha : a.WF) (hb : b.WF)
    (s ba bb bc rows cols : List Nat) (K : Nat) (S : MatShapes dev a.arr.shape b.arr.shape s ba bb bc rows cols K)
    (hr : ba ≠ [] → bb ≠ [] → ba.length = bb.length) (sa : a.Settled) (sb : b.Settled) :
    ∃ c w d, a.matmul (floatOps add mul) mul dev par fresh b (.num 1) = .ok (c, w) ∧ w.Leaves c.data d ∧
      (⟨d, c.layout⟩ : Tensor Flt).WF ∧ c.layout = freshLayout dev s ∧ (⟨d, c.layout⟩ : Tensor Flt).arr.shape = s ∧
      MatCells dev (fun ps r => (DotInRange p e ps → DotWithin p e ps r) ∧
          (WholeDot p e ps → r.Finite p e ∧ r.val = (ps.map fun q => q.1.val * q.2.val).sum) ∧
          ((∃ q ∈ ps, q.1.IsNaN ∨ q.2.IsNaN) → r.IsNaN)) a.arr b.arr
        ba bb bc rows cols K (⟨d, c.layout⟩ : Tensor Flt).arr := by
  obtain ⟨c, w, d, h1, h2, h3, h4, h5, h6⟩ := C101_matmul_partial (floatOps add mul) mul dev par hd fresh a b ha hb s ba bb bc rows cols K
    S hr sa sb (.num 1)
  refine ⟨c, w, d, h1, h2, h3, h4, h5, fun t i j ht hi hj => ?_⟩
  obtain ⟨v, r, x, y, -, g2, g3, ⟨k, rfl⟩, g4⟩ := h6.2 t i j ht hi hj
  have M' := factorOrder_nearest M dev
  have one : (Flt.num 1).Finite p e ∧ (Flt.num 1).val = 1 := by
    refine ⟨⟨1, rfl, ?_⟩, rfl⟩
    simpa using representable_int (n := 1) (p := p) (e := e) (by simpa using one_le_pow₀ (by norm_num : (1 : Int) ≤ 2)) hp hpe
  have zero : (Flt.num 0).Finite p e ∧ (Flt.num 0).val = 0 := ⟨zero_finite hp hpe, rfl⟩
  exact ⟨r, x, y, g2, g3, fun hi => matWay_within hp hpe A M M' one zero (hfresh k) g4 hi,
    fun hw => matWay_dot hp hpe A M M' one zero (hfresh k) g4 hw, matWay_nan A M M' g4⟩

include hp hpe A M in
/-- `matmul_from` with floats: whole numbers with few digits are multiplied and added without error, so that the
result is the same on every device, and not-a-number spreads to every cell that uses it. Missing: what
`C42_matmul_from_partial` leaves out. -/
theorem C101_float_matmul_from_partial (dev : Order) (par : Option MatPar) (hd : MatDevice par) (a b c : Tensor Flt) (ha : a.WF) (hb : b.WF)
    (hc : c.WF) (ba bb bc rows cols : List Nat) (K : Nat) (S : MatShapes dev a.arr.shape b.arr.shape c.arr.shape ba bb bc rows cols K)
    (hr : ba ≠ [] → bb ≠ [] → ba.length = bb.length)
    (h0 : par = none → rows = [] → cols = [] → c.layout.offset = 0)
    (hz : 0 ∉ c.arr.shape → (0 : Int) ∉ c.layout.stride) (sa : a.Settled) (sb : b.Settled) (sc : c.Settled) (alpha beta : Flt) :
    ∃ w d, c.matmulFrom (floatOps add mul) mul dev par a b alpha beta = .ok w ∧ w.Leaves c.data d ∧
      (⟨d, c.layout⟩ : Tensor Flt).WF ∧
      MatUpdateBy dev (fun ps v r => (WholeProducts p e alpha beta v ps →
          r.Finite p e ∧ r.val = beta.val * v.val + alpha.val * (ps.map fun q => q.1.val * q.2.val).sum) ∧
          ((∃ q ∈ ps, q.1.IsNaN ∨ q.2.IsNaN) → r.IsNaN) ∧
          (alpha.Finite p e ∧ alpha.val = 1 → beta.Finite p e ∧ beta.val = 0 → v.Finite p e → DotInRange p e ps → DotWithin p e ps r))
        a.arr b.arr ba bb bc rows cols K c.arr (⟨d, c.layout⟩ : Tensor Flt).arr ∧
      ChangedOnly (Addressed c.layout.stride c.layout.offset c.layout.shape) c.data d := by
  obtain ⟨w, d, h1, h2, h3, h4, h5⟩ := C101_matmul_from_partial (floatOps add mul) mul dev par hd a b c ha hb hc ba bb bc rows cols K
    S hr h0 hz sa sb sc alpha beta
  have M' := factorOrder_nearest M dev
  exact ⟨w, d, h1, h2, h3, matUpdateBy_mono h4 fun ps v r g => ⟨matWay_whole hp hpe A M M' g, matWay_nan A M M' g,
    fun h1 h0 hv => matWay_within hp hpe A M M' h1 h0 hv g⟩, h5⟩

end

/-- The modelled multiplication is a multiplication that rounds to a nearest float, for every format. -/
theorem C101_mul_nearest {p e : Nat} (hp : 1 ≤ p) (hpe : p ≤ e) : NearestMul p e (fltMul p e) := fltMul_nearest hp hpe

/-! ## Cases -/

def fvec (xs : List Int) : Tensor Flt := ⟨xs.map fun x => .num x, Layout.newCContig [xs.length] 0⟩

/-- Two threads, the first of which takes one pair. -/
def oneThenRest : MatPar := ⟨2, fun _ => halving, fun _ => .split 1 .run .run⟩

theorem doneIs {x : Res (Tensor α × Work α)} {v : List α}
    (h : (match x with | .ok (_, .done w) => some w | _ => none) = some v) : x.map (·.2) = .ok (.done v) := by
  match x, h with
  | .ok (_, .done w), h => cases h; rfl

/-- What comes out does depend on the device: with three digits, `8 + 1 + 1` is 8 or 10. -/
theorem C101_device_matters :
    ((fvec [8, 1, 1]).matmul (floatOps (fltAdd 3 8) (fltMul 3 8)) (fltMul 3 8) .C none (fun _ => .num 0) (fvec [1, 1, 1]) (.num 1)).map (·.2) =
      .ok (.done [.num 8]) ∧
    MatDevice (some oneThenRest) ∧
    ((fvec [8, 1, 1]).matmul (floatOps (fltAdd 3 8) (fltMul 3 8)) (fltMul 3 8) .C (some oneThenRest) (fun _ => .num 0) (fvec [1, 1, 1])
      (.num 1)).map (·.2) = .ok (.done [.num 10]) := by
  refine ⟨?_, ?_, ?_⟩
  · exact doneIs (by decide +kernel)
  · intro p hp
    cases hp
    exact halving_fits
  · exact doneIs (by decide +kernel)

theorem fvec_finite (z : Int) (h : |z| ≤ 2 ^ 24) : (Flt.num z).Finite 24 128 := ⟨_, rfl, representable_int h (by decide) (by decide)⟩

/-- A matrix of singles with a gap between its rows, and its product with a transposed matrix. -/
def singlesA : Tensor Flt := ⟨[.num 1, .num 2, .nan false, .num 3, .num 4], ⟨[⟨2, 3⟩, ⟨2, 1⟩], 0⟩⟩
def singlesB : Tensor Flt := ⟨[.num 5, .num 6, .num 7, .num (-8)], ⟨[⟨2, 1⟩, ⟨2, 2⟩], 0⟩⟩

example (par : Option MatPar) (hp : MatDevice par) := C101_float_matmul_partial (by decide) (by decide) (C100_add_nearest (p := 24) (e := 128)
  (by decide) (by decide)) (C101_mul_nearest (by decide) (by decide)) .C par hp (fun _ => .num 9) (fun _ => by simpa using fvec_finite 9 (by norm_num))
  singlesA singlesB ⟨by decide, rfl⟩ ⟨by decide, rfl⟩ [2, 2] [] [] [] [2] [2] 2
  ⟨rfl, rfl, rfl, by decide, by decide, by decide, by decide, ⟨rfl, by decide⟩⟩ (by decide)
  (fun h => absurd h (by decide)) (fun h => absurd h (by decide))

example : (singlesA.matmul (floatOps (fltAdd 24 128) (fltMul 24 128)) (fltMul 24 128) .C none (fun _ => .num 9) singlesB (.num 1)).map (·.2) =
    .ok (.done [.num 17, .num (-9), .num 39, .num (-11)]) := doneIs (by decide +kernel)

theorem pairs_range : DotInRange 24 128 [(.num 3, .num 5), (.num 4, .num (-8))] := by
  constructor
  · intro q hq
    simp only [List.mem_cons, List.not_mem_nil, or_false] at hq
    rcases hq with rfl | rfl
    · exact ⟨by simpa using fvec_finite 3 (by norm_num), by simpa using fvec_finite 5 (by norm_num)⟩
    · exact ⟨by simpa using fvec_finite 4 (by norm_num), by simpa using fvec_finite (-8) (by norm_num)⟩
  · norm_num [Flt.val, Flt.rat?, halfTiny, maxFinite]

example : WholeProducts 24 128 (.num 2) (.num 3) (.num 7) [(.num 3, .num 5), (.num 4, .num (-8))] := by
  refine ⟨fun x => x.val.num, ?_, ?_, by norm_num [Flt.val, Flt.rat?], by norm_num [Flt.val, Flt.rat?]⟩
  · rintro x (rfl | rfl | rfl)
    · exact ⟨by simpa using fvec_finite 2 (by norm_num), by norm_num [Flt.val, Flt.rat?]⟩
    · exact ⟨by simpa using fvec_finite 3 (by norm_num), by norm_num [Flt.val, Flt.rat?]⟩
    · exact ⟨by simpa using fvec_finite 7 (by norm_num), by norm_num [Flt.val, Flt.rat?]⟩
  · intro q hq
    have h := pairs_range.1 q hq
    simp only [List.mem_cons, List.not_mem_nil, or_false] at hq
    rcases hq with rfl | rfl <;> exact ⟨⟨h.1, by norm_num [Flt.val, Flt.rat?]⟩, h.2, by norm_num [Flt.val, Flt.rat?]⟩

end Rstsr
