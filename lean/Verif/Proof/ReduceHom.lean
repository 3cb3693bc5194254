import Verif.Proof.Reduce
import Mathlib.Order.Lattice
/-!
# Reductions and maps between their states

A reduction whose states are the images of the states of another one gives the same result.
-/
namespace Rstsr
open Spec

section
variable {α σ τ ω ι : Type}

/-- `R` does on the images of the states of `Q` what `Q` does on the states. -/
structure Follows (h : τ → σ) (Q : Reducer α τ ω) (R : Reducer α σ ω) : Prop where
  init : R.init = h Q.init
  f : ∀ s x, R.f (h s) x = h (Q.f s x)
  fSum : ∀ s t, R.fSum (h s) (h t) = h (Q.fSum s t)
  fOut : ∀ s, R.fOut (h s) = Q.fOut s

def Acc8.map (h : τ → σ) (p : Acc8 τ) : Acc8 σ := ⟨h p.p0, h p.p1, h p.p2, h p.p3, h p.p4, h p.p5, h p.p6, h p.p7⟩

theorem unroll8_hom {h : τ → σ} {f : σ → α → σ} {g : τ → α → τ} (hf : ∀ s x, f (h s) x = h (g s x)) (xs : List α) (p : Acc8 τ) :
    unroll8 f (p.map h) xs = ((unroll8 g p xs).1.map h, (unroll8 g p xs).2) := by
  induction p, xs using unroll8.induct (f := g) with
  | case1 p x0 x1 x2 x3 x4 x5 x6 x7 xs ih =>
    rw [unroll8, unroll8]
    rw [← ih]
    simp only [Acc8.map, hf]
  | case2 p xs hx =>
    rw [unroll8, unroll8]
    · exact hx
    · exact hx

variable {h : τ → σ} {Q : Reducer α τ ω} {R : Reducer α σ ω} (F : Follows h Q R)
include F

theorem foldl_hom (xs : List α) (s : τ) : xs.foldl R.f (h s) = h (xs.foldl Q.f s) := by
  induction xs generalizing s with
  | nil => rfl
  | cons x xs ih => simp only [List.foldl_cons, F.f, ih]

theorem unrolledReduce_hom (xs : List α) : unrolledReduce R xs = h (unrolledReduce Q xs) := by
  unfold unrolledReduce
  have e := unroll8_hom (h := h) (f := R.f) (g := Q.f) F.f xs ⟨Q.init, Q.init, Q.init, Q.init, Q.init, Q.init, Q.init, Q.init⟩
  rw [show Acc8.map h (⟨Q.init, Q.init, Q.init, Q.init, Q.init, Q.init, Q.init, Q.init⟩ : Acc8 τ) =
    ⟨R.init, R.init, R.init, R.init, R.init, R.init, R.init, R.init⟩ by simp only [Acc8.map, F.init]] at e
  simp only [e]
  rw [← foldl_hom F]
  congr 1
  simp only [join8, Acc8.map, F.init, F.fSum]

omit F in
theorem foldRes_hom {op : σ → ι → Res σ} {oq : τ → ι → Res τ} (ho : ∀ s x, op (h s) x = h <$> oq s x) (xs : List ι) (s : τ) :
    foldRes op (h s) xs = h <$> foldRes oq s xs := by
  induction xs generalizing s with
  | nil => rfl
  | cons x xs ih =>
    rw [foldRes, foldRes, ho]
    cases oq s x with
    | error e => rfl
    | ok t => exact ih t

theorem stepAt_hom (a : List α) (s : τ) (i : Nat) : stepAt R a (h s) i = h <$> stepAt Q a s i := by
  unfold stepAt
  cases readAt a i with
  | error e => rfl
  | ok x => exact congrArg Except.ok (F.f s x)

theorem stepBlock_hom (a : List α) (n : Nat) (s : τ) (i : Nat) : stepBlock R a n (h s) i = h <$> stepBlock Q a n s i := by
  unfold stepBlock
  cases sliceAt a i n with
  | error e => rfl
  | ok x =>
    refine congrArg Except.ok ?_
    show R.fSum (h s) (unrolledReduce R x) = h (Q.fSum s (unrolledReduce Q x))
    rw [unrolledReduce_hom F, F.fSum]

theorem out_hom (x : Res τ) : R.fOut <$> (h <$> x) = Q.fOut <$> x := by
  cases x with
  | error e => rfl
  | ok s => exact congrArg Except.ok (F.fOut s)

theorem sum_hom (s : τ) (x : Res τ) : (do return R.fSum (h s) (← h <$> x)) = h <$> (do return Q.fSum s (← x)) := by
  cases x with
  | error e => rfl
  | ok t => exact congrArg Except.ok (F.fSum s t)

theorem sum2_hom (x y : Res τ) : (do return R.fSum (← h <$> x) (← h <$> y)) = h <$> (do return Q.fSum (← x) (← y)) := by
  cases x with
  | error e => rfl
  | ok s => exact sum_hom F s y

theorem parFold_hom {op : σ → ι → Res σ} {oq : τ → ι → Res τ} (ho : ∀ s x, op (h s) x = h <$> oq s x) (p : Plan) (xs : List ι) :
    parFold R.init R.fSum op p xs = h <$> parFold Q.init Q.fSum oq p xs := by
  induction p generalizing xs with
  | run => rw [parFold, parFold, F.init, foldRes_hom ho, ← sum_hom F]
  | split k p q ip iq => rw [parFold, parFold, ip, iq, ← sum2_hom F]

theorem parFold1_hom {op : Plan → σ → Nat → Res σ} {oq : Plan → τ → Nat → Res τ} (ho : ∀ p s x, op p (h s) x = h <$> oq p s x) (p : Sched) (it : Iter) :
    parFold1 R.init R.fSum op p it = h <$> parFold1 Q.init Q.fSum oq p it := by
  induction p generalizing it with
  | run inner =>
    rw [parFold1, parFold1, F.init]
    cases it.toList with
    | error e => rfl
    | ok l =>
      simp only [ok_bind]
      rw [foldRes_hom (oq := fun acc p => oq (inner p.1) acc p.2) fun s x => ho _ _ _, ← sum_hom F]
  | split k p q ip iq =>
    rw [parFold1, parFold1]
    cases it.splitAt k with
    | error e => rfl
    | ok l =>
      simp only [ok_bind]
      rw [ip, iq, ← sum2_hom F]

theorem parBlockStep_hom (a : List α) (n : Nat) (p : Plan) (s : τ) (i : Nat) :
    parBlockStep R a n p (h s) i = h <$> parBlockStep Q a n p s i := by
  unfold parBlockStep
  rw [parFold_hom F (oq := fun acc idx => stepBlock Q a (min reduceChunk (n - idx)) acc (i + idx)) fun s x => stepBlock_hom F _ _ _ _, sum_hom F]

theorem reduceAll_hom (dflt : Order) (a : List α) (l : Layout) : reduceAll dflt R a l = reduceAll dflt Q a l := by
  unfold reduceAll
  cases l.toColMajor dflt .K with
  | error e => rfl
  | ok l =>
    simp only [ok_bind]
    generalize Layout.withContig [l] = c
    obtain ⟨c, n⟩ := c
    simp only
    split
    · split
      · rename_i m
        cases colItems m with
        | error e => rfl
        | ok xs =>
          simp only [ok_bind]
          rw [F.init, foldRes_hom (oq := stepBlock Q a n) (stepBlock_hom F a n), out_hom F]
      · rfl
    · cases colItems l with
      | error e => rfl
      | ok xs =>
        simp only [ok_bind]
        rw [F.init, foldRes_hom (oq := stepAt Q a) (stepAt_hom F a), out_hom F]

theorem reduceAllPar_hom (dflt : Order) (sch : Scheduler) (a : List α) (l : Layout) :
    reduceAllPar dflt sch R a l = reduceAllPar dflt sch Q a l := by
  unfold reduceAllPar
  split
  · exact reduceAll_hom F dflt a l
  cases l.toColMajor dflt .K with
  | error e => rfl
  | ok l =>
    simp only [ok_bind]
    generalize Layout.withContig [l] = c
    obtain ⟨c, n⟩ := c
    simp only
    split
    · split
      · rename_i m
        cases Iter.new .F m with
        | error e => rfl
        | ok it =>
          simp only [ok_bind]
          split
          · rw [parFold1_hom F (oq := fun _ => stepBlock Q a n) fun _ => stepBlock_hom F a n, out_hom F]
          · rw [parFold1_hom F (oq := parBlockStep Q a n) (parBlockStep_hom F a n), out_hom F]
      · rfl
    · cases Iter.new .F l with
      | error e => rfl
      | ok it =>
        simp only [ok_bind]
        rw [parFold1_hom F (oq := fun _ => stepAt Q a) fun _ => stepAt_hom F a, out_hom F]

theorem reduce_hom (dflt : Order) (par : Option Scheduler) (t : Tensor α) : t.reduce dflt par R = t.reduce dflt par Q := by
  unfold Tensor.reduce
  cases par with
  | none => exact reduceAll_hom F _ _ _
  | some s => exact reduceAllPar_hom F _ _ _ _

end

/-- The last step of a reduction is only applied to its result. -/
theorem reduce_out {α σ ω ω' : Type} (R : Reducer α σ ω) (g : ω → ω') (dflt : Order) (par : Option Scheduler) (t : Tensor α) :
    t.reduce dflt par (⟨R.init, R.f, R.fSum, fun s => g (R.fOut s)⟩ : Reducer α σ ω') = g <$> t.reduce dflt par R := by
  have key : ∀ x : Res σ, (fun s => g (R.fOut s)) <$> x = g <$> (R.fOut <$> x) := fun x => by cases x <;> rfl
  have serial : ∀ (a : List α) (l : Layout), reduceAll dflt (⟨R.init, R.f, R.fSum, fun s => g (R.fOut s)⟩ : Reducer α σ ω') a l = g <$> reduceAll dflt R a l := by
    intro a l
    unfold reduceAll
    cases l.toColMajor dflt .K with
    | error e => rfl
    | ok l =>
      simp only [ok_bind]
      generalize Layout.withContig [l] = c
      obtain ⟨c, n⟩ := c
      simp only
      split
      · split
        · rename_i m
          cases colItems m with
          | error e => rfl
          | ok xs => exact key _
        · rfl
      · cases colItems l with
        | error e => rfl
        | ok xs => exact key _
  unfold Tensor.reduce
  cases par with
  | none => exact serial _ _
  | some s =>
    show reduceAllPar dflt s _ _ _ = g <$> reduceAllPar dflt s _ _ _
    unfold reduceAllPar
    split
    · exact serial _ _
    cases t.layout.toColMajor dflt .K with
    | error e => rfl
    | ok l =>
      simp only [ok_bind]
      generalize Layout.withContig [l] = c
      obtain ⟨c, n⟩ := c
      simp only
      split
      · split
        · rename_i m
          cases Iter.new .F m with
          | error e => rfl
          | ok it =>
            simp only [ok_bind]
            split
            · exact key _
            · exact key _
        · rfl
      · cases Iter.new .F l with
        | error e => rfl
        | ok it => exact key _

/-- A maximum taken from a start value that need not be the least one. -/
theorem reduce_max {α : Type} [LinearOrder α] (dflt : Order) (par : Option Scheduler) (hp : ∀ s, par = some s → s.Fits) {t : Tensor α} (h : t.WF)
    (bot : α) : t.reduce dflt par ⟨bot, max, max, id⟩ = .ok (t.arr.elements.foldl max bot) := by
  let Q : Reducer α {x : α // bot ≤ x} α := ⟨⟨bot, le_rfl⟩, fun s x => ⟨max s.1 x, s.2.trans (le_max_left _ _)⟩,
    fun s t => ⟨max s.1 t.1, s.2.trans (le_max_left _ _)⟩, Subtype.val⟩
  have F : Follows Subtype.val Q ⟨bot, max, max, id⟩ := ⟨rfl, fun _ _ => rfl, fun _ _ => rfl, fun _ => rfl⟩
  rw [reduce_hom F, reduce_eq dflt par hp h (R := Q)]
  · have := foldl_hom F t.arr.elements Q.init
    exact congrArg Except.ok this.symm
  · refine ⟨fun x y z => Subtype.ext (max_assoc _ _ _), fun x y => Subtype.ext (max_comm _ _), fun x => Subtype.ext (max_eq_right x.2), fun a x => Subtype.ext ?_⟩
    show max a.1 x = max a.1 (max bot x)
    rw [← max_assoc, max_eq_left a.2]

/-- A minimum likewise. -/
theorem reduce_min {α : Type} [LinearOrder α] (dflt : Order) (par : Option Scheduler) (hp : ∀ s, par = some s → s.Fits) {t : Tensor α} (h : t.WF)
    (top : α) : t.reduce dflt par ⟨top, min, min, id⟩ = .ok (t.arr.elements.foldl min top) := by
  let Q : Reducer α {x : α // x ≤ top} α := ⟨⟨top, le_rfl⟩, fun s x => ⟨min s.1 x, (min_le_left _ _).trans s.2⟩,
    fun s t => ⟨min s.1 t.1, (min_le_left _ _).trans s.2⟩, Subtype.val⟩
  have F : Follows Subtype.val Q ⟨top, min, min, id⟩ := ⟨rfl, fun _ _ => rfl, fun _ _ => rfl, fun _ => rfl⟩
  rw [reduce_hom F, reduce_eq dflt par hp h (R := Q)]
  · have := foldl_hom F t.arr.elements Q.init
    exact congrArg Except.ok this.symm
  · refine ⟨fun x y z => Subtype.ext (min_assoc _ _ _), fun x y => Subtype.ext (min_comm _ _), fun x => Subtype.ext (min_eq_right x.2), fun a x => Subtype.ext ?_⟩
    show min a.1 x = min a.1 (min top x)
    rw [← min_assoc, min_eq_left a.2]

/-- A minimum or maximum by a key: the key of the result is that of the elements. -/
theorem reduce_minKey {α κ : Type} [LinearOrder κ] (key : α → κ) (op : α → α → α) (hop : ∀ x y, key (op x y) = min (key x) (key y)) (dflt : Order)
    (par : Option Scheduler) (hp : ∀ s, par = some s → s.Fits) {t : Tensor α} (h : t.WF) (top : α) :
    ∃ y, t.reduce dflt par ⟨top, op, op, id⟩ = .ok y ∧ key y = (t.arr.elements.map key).foldl min (key top) := by
  let Q : Reducer α α κ := ⟨top, op, op, key⟩
  let R : Reducer α κ κ := ⟨key top, fun s x => min s (key x), min, id⟩
  have F : Follows key Q R := ⟨rfl, fun s x => (hop s x).symm, fun s x => (hop s x).symm, fun _ => rfl⟩
  let Q' : Reducer α {x : κ // x ≤ key top} κ := ⟨⟨key top, le_rfl⟩, fun s x => ⟨min s.1 (key x), (min_le_left _ _).trans s.2⟩,
    fun s t => ⟨min s.1 t.1, (min_le_left _ _).trans s.2⟩, Subtype.val⟩
  have F' : Follows Subtype.val Q' R := ⟨rfl, fun _ _ => rfl, fun _ _ => rfl, fun _ => rfl⟩
  have e : t.reduce dflt par R = .ok ((t.arr.elements.map key).foldl min (key top)) := by
    rw [reduce_hom F', reduce_eq dflt par hp h (R := Q')]
    · have := foldl_hom F' t.arr.elements Q'.init
      rw [List.foldl_map]
      exact congrArg Except.ok this.symm
    · refine ⟨fun x y z => Subtype.ext (min_assoc _ _ _), fun x y => Subtype.ext (min_comm _ _), fun x => Subtype.ext (min_eq_right x.2), fun a x => Subtype.ext ?_⟩
      show min a.1 (key x) = min a.1 (min (key top) (key x))
      rw [← min_assoc, min_eq_left a.2]
  rw [reduce_hom F] at e
  have o := reduce_out (⟨top, op, op, id⟩ : Reducer α α α) key dflt par t
  change t.reduce dflt par Q = _ at o
  rw [e] at o
  cases hy : t.reduce dflt par (⟨top, op, op, id⟩ : Reducer α α α) with
  | error x => rw [hy] at o; cases o
  | ok y => rw [hy] at o; exact ⟨y, rfl, (Except.ok.inj o).symm⟩

end Rstsr
