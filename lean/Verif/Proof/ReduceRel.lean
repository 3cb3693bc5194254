import Verif.Proof.Reduce
import Verif.Model.ReduceAxes
import Verif.Proof.Concurrent
/-!
# Reductions with related states

Two reductions whose closures keep a relation between their states run in step: they fail together or give
related results. No law is asked of the closures.
-/
namespace Rstsr
open Spec

section
variable {α σ τ ω υ ι : Type}

/-- The closures of `R` and `Q` keep the relation `S` between their states, and related states give outputs
related by `O`. -/
structure Related (S : σ → τ → Prop) (O : ω → υ → Prop) (R : Reducer α σ ω) (Q : Reducer α τ υ) : Prop where
  init : S R.init Q.init
  f : ∀ {s t} (x : α), S s t → S (R.f s x) (Q.f t x)
  fSum : ∀ {s t s' t'}, S s t → S s' t' → S (R.fSum s s') (Q.fSum t t')
  fOut : ∀ {s t}, S s t → O (R.fOut s) (Q.fOut t)

/-- Both computations fail in the same way, or both give a result and the results are related. -/
inductive ResRel (S : σ → τ → Prop) : Res σ → Res τ → Prop
  | ok {s t} : S s t → ResRel S (.ok s) (.ok t)
  | err (e) : ResRel S (.error e) (.error e)

theorem ResRel.bind {σ' τ' : Type} {S : σ → τ → Prop} {S' : σ' → τ' → Prop} {x : Res σ} {y : Res τ} {f : σ → Res σ'} {g : τ → Res τ'}
    (h : ResRel S x y) (hf : ∀ s t, S s t → ResRel S' (f s) (g t)) : ResRel S' (x >>= f) (y >>= g) := by
  cases h with
  | ok h => exact hf _ _ h
  | err e => exact .err e

theorem ResRel.map {σ' τ' : Type} {S : σ → τ → Prop} {S' : σ' → τ' → Prop} {x : Res σ} {y : Res τ} {f : σ → σ'} {g : τ → τ'}
    (h : ResRel S x y) (hf : ∀ s t, S s t → S' (f s) (g t)) : ResRel S' (f <$> x) (g <$> y) := by
  cases h with
  | ok h => exact .ok (hf _ _ h)
  | err e => exact .err e

theorem ResRel.refl (x : Res σ) : ResRel Eq x x := by
  cases x with
  | ok s => exact .ok rfl
  | error e => exact .err e

/-- A common first step. -/
theorem ResRel.after {σ' τ' : Type} {S' : σ' → τ' → Prop} (x : Res σ) {f : σ → Res σ'} {g : σ → Res τ'}
    (hf : ∀ s, x = .ok s → ResRel S' (f s) (g s)) : ResRel S' (x >>= f) (x >>= g) := by
  cases x with
  | ok s => exact hf s rfl
  | error e => exact .err e

theorem ResRel.mono {S S' : σ → τ → Prop} {x : Res σ} {y : Res τ} (h : ResRel S x y) (hs : ∀ s t, S s t → S' s t) : ResRel S' x y := by
  cases h with
  | ok h => exact .ok (hs _ _ h)
  | err e => exact .err e

theorem foldRes_rel {S : σ → τ → Prop} {op : σ → ι → Res σ} {oq : τ → ι → Res τ} (ho : ∀ s t x, S s t → ResRel S (op s x) (oq t x))
    (xs : List ι) {s : σ} {t : τ} (h : S s t) : ResRel S (foldRes op s xs) (foldRes oq t xs) := by
  induction xs generalizing s t with
  | nil => exact .ok h
  | cons x xs ih => exact (ho s t x h).bind fun _ _ h => ih h

/-- Two sets of eight accumulators. -/
structure Acc8Rel (S : σ → τ → Prop) (p : Acc8 σ) (q : Acc8 τ) : Prop where
  h0 : S p.p0 q.p0
  h1 : S p.p1 q.p1
  h2 : S p.p2 q.p2
  h3 : S p.p3 q.p3
  h4 : S p.p4 q.p4
  h5 : S p.p5 q.p5
  h6 : S p.p6 q.p6
  h7 : S p.p7 q.p7

theorem unroll8_rel {S : σ → τ → Prop} {f : σ → α → σ} {g : τ → α → τ} (hf : ∀ s t x, S s t → S (f s x) (g t x)) (xs : List α)
    (p : Acc8 σ) (q : Acc8 τ) (h : Acc8Rel S p q) :
    Acc8Rel S (unroll8 f p xs).1 (unroll8 g q xs).1 ∧ (unroll8 f p xs).2 = (unroll8 g q xs).2 := by
  induction p, xs using unroll8.induct (f := f) generalizing q with
  | case1 p x0 x1 x2 x3 x4 x5 x6 x7 xs ih =>
    rw [unroll8, unroll8]
    exact ih _ ⟨hf _ _ _ h.h0, hf _ _ _ h.h1, hf _ _ _ h.h2, hf _ _ _ h.h3, hf _ _ _ h.h4, hf _ _ _ h.h5, hf _ _ _ h.h6, hf _ _ _ h.h7⟩
  | case2 p xs hx =>
    rw [unroll8, unroll8]
    · exact ⟨h, rfl⟩
    · exact hx
    · exact hx

theorem zipWith_rel {S : σ → τ → Prop} {f : σ → α → σ} {g : τ → α → τ} (hf : ∀ s t x, S s t → S (f s x) (g t x)) (xs : List α)
    {v : List σ} {w : List τ} (h : List.Forall₂ S v w) : List.Forall₂ S (List.zipWith f v xs) (List.zipWith g w xs) := by
  induction h generalizing xs with
  | nil => simp
  | cons h _ ih =>
    cases xs with
    | nil => simp
    | cons x xs => exact .cons (hf _ _ x h) (ih xs)

theorem mapM_rel {S : σ → τ → Prop} {f : ι → Res σ} {g : ι → Res τ} (xs : List ι) (h : ∀ x, ResRel S (f x) (g x)) :
    ResRel (List.Forall₂ S) (xs.mapM f) (xs.mapM g) := by
  induction xs with
  | nil => exact .ok .nil
  | cons x xs ih =>
    rw [List.mapM_cons, List.mapM_cons]
    exact (h x).bind fun _ _ h1 => ih.bind fun _ _ h2 => .ok (.cons h1 h2)

theorem flatten_rel {S : σ → τ → Prop} {v : List (List σ)} {w : List (List τ)} (h : List.Forall₂ (List.Forall₂ S) v w) :
    List.Forall₂ S v.flatten w.flatten := by
  induction h with
  | nil => exact .nil
  | cons h _ ih => exact List.rel_append h ih

theorem readAt_rel {S : σ → τ → Prop} {v : List σ} {w : List τ} (h : List.Forall₂ S v w) (i : Nat) : ResRel S (readAt v i) (readAt w i) := by
  unfold readAt
  induction h generalizing i with
  | nil => exact .err _
  | cons h _ ih =>
    cases i with
    | zero => exact .ok h
    | succ i => simpa using ih i

variable {S : σ → τ → Prop} {O : ω → υ → Prop} {R : Reducer α σ ω} {Q : Reducer α τ υ} (F : Related S O R Q)
include F

theorem foldl_rel (xs : List α) {s : σ} {t : τ} (h : S s t) : S (xs.foldl R.f s) (xs.foldl Q.f t) := by
  induction xs generalizing s t with
  | nil => exact h
  | cons x xs ih => exact ih (F.f x h)

theorem unrolledReduce_rel (xs : List α) : S (unrolledReduce R xs) (unrolledReduce Q xs) := by
  unfold unrolledReduce
  have h := unroll8_rel (S := S) (f := R.f) (g := Q.f) (fun s t x => F.f x) xs
    ⟨R.init, R.init, R.init, R.init, R.init, R.init, R.init, R.init⟩ ⟨Q.init, Q.init, Q.init, Q.init, Q.init, Q.init, Q.init, Q.init⟩
    ⟨F.init, F.init, F.init, F.init, F.init, F.init, F.init, F.init⟩
  obtain ⟨g1, g2⟩ := h
  simp only [g2]
  refine foldl_rel F _ ?_
  exact F.fSum (F.fSum (F.fSum (F.fSum F.init (F.fSum g1.h0 g1.h4)) (F.fSum g1.h1 g1.h5)) (F.fSum g1.h2 g1.h6)) (F.fSum g1.h3 g1.h7)

theorem stepAt_rel (a : List α) {s : σ} {t : τ} (i : Nat) (h : S s t) : ResRel S (stepAt R a s i) (stepAt Q a t i) :=
  ResRel.after _ fun x _ => .ok (F.f x h)

theorem stepBlock_rel (a : List α) (n : Nat) {s : σ} {t : τ} (i : Nat) (h : S s t) : ResRel S (stepBlock R a n s i) (stepBlock Q a n t i) :=
  ResRel.after _ fun x _ => .ok (F.fSum h (unrolledReduce_rel F x))

theorem parFold_rel {op : σ → ι → Res σ} {oq : τ → ι → Res τ} (ho : ∀ s t x, S s t → ResRel S (op s x) (oq t x)) (p : Plan) (xs : List ι) :
    ResRel S (parFold R.init R.fSum op p xs) (parFold Q.init Q.fSum oq p xs) := by
  induction p generalizing xs with
  | run => exact (foldRes_rel ho xs F.init).bind fun _ _ h => .ok (F.fSum F.init h)
  | split k p q ip iq => exact (ip _).bind fun _ _ h1 => (iq _).bind fun _ _ h2 => .ok (F.fSum h1 h2)

theorem parFold1_rel {op : Plan → σ → Nat → Res σ} {oq : Plan → τ → Nat → Res τ}
    (ho : ∀ p s t x, S s t → ResRel S (op p s x) (oq p t x)) (p : Sched) (it : Iter) :
    ResRel S (parFold1 R.init R.fSum op p it) (parFold1 Q.init Q.fSum oq p it) := by
  induction p generalizing it with
  | run inner =>
    exact ResRel.after _ fun l _ => (foldRes_rel (op := fun acc (p : Nat × Nat) => op (inner p.1) acc p.2)
      (oq := fun acc p => oq (inner p.1) acc p.2) (fun s t x => ho _ s t _) _ F.init).bind fun _ _ h => .ok (F.fSum F.init h)
  | split k p q ip iq =>
    exact ResRel.after _ fun l _ => (ip _).bind fun _ _ h1 => (iq _).bind fun _ _ h2 => .ok (F.fSum h1 h2)

theorem parBlockStep_rel (a : List α) (n : Nat) (p : Plan) {s : σ} {t : τ} (i : Nat) (h : S s t) :
    ResRel S (parBlockStep R a n p s i) (parBlockStep Q a n p t i) :=
  (parFold_rel F (op := fun acc idx => stepBlock R a (min reduceChunk (n - idx)) acc (i + idx))
    (oq := fun acc idx => stepBlock Q a (min reduceChunk (n - idx)) acc (i + idx)) (fun _ _ _ h => stepBlock_rel F _ _ _ h) p _).bind
    fun _ _ h' => .ok (F.fSum h h')

theorem reduceAll_rel (dflt : Order) (a : List α) (l : Layout) : ResRel O (reduceAll dflt R a l) (reduceAll dflt Q a l) := by
  unfold reduceAll
  refine ResRel.after _ fun l _ => ?_
  generalize Layout.withContig [l] = c
  obtain ⟨c, n⟩ := c
  simp only
  split
  · split
    · exact ResRel.after _ fun xs _ => (foldRes_rel (fun _ _ x h => stepBlock_rel F a n x h) xs F.init).map fun _ _ => F.fOut
    · exact .err _
  · exact ResRel.after _ fun xs _ => (foldRes_rel (fun _ _ x h => stepAt_rel F a x h) xs F.init).map fun _ _ => F.fOut

theorem reduceAllPar_rel (dflt : Order) (sch : Scheduler) (a : List α) (l : Layout) :
    ResRel O (reduceAllPar dflt sch R a l) (reduceAllPar dflt sch Q a l) := by
  unfold reduceAllPar
  split
  · exact reduceAll_rel F dflt a l
  refine ResRel.after _ fun l _ => ?_
  generalize Layout.withContig [l] = c
  obtain ⟨c, n⟩ := c
  simp only
  split
  · split
    · refine ResRel.after _ fun it _ => ?_
      split
      · exact (parFold1_rel F (fun _ _ _ x h => stepBlock_rel F a n x h) _ it).map fun _ _ => F.fOut
      · exact (parFold1_rel F (fun p _ _ x h => parBlockStep_rel F a n p x h) _ it).map fun _ _ => F.fOut
    · exact .err _
  · refine ResRel.after _ fun it _ => ?_
    exact (parFold1_rel F (fun _ _ _ x h => stepAt_rel F a x h) _ it).map fun _ _ => F.fOut

theorem reduce_rel (dflt : Order) (par : Option Scheduler) (t : Tensor α) : ResRel O (t.reduce dflt par R) (t.reduce dflt par Q) := by
  unfold Tensor.reduce
  cases par with
  | none => exact reduceAll_rel F _ _ _
  | some s => exact reduceAllPar_rel F _ _ _ _

/-! ## Along axes -/

theorem repeatAcc_rel (n : Nat) {s : σ} {t : τ} (h : S s t) : S (repeatAcc R n s) (repeatAcc Q n t) := by
  unfold repeatAcc
  have key : ∀ (xs : List Nat) {s' : σ} {t' : τ}, S s' t' →
      S (xs.foldl (fun acc _ => R.fSum acc s) s') (xs.foldl (fun acc _ => Q.fSum acc t) t') := by
    intro xs
    induction xs with
    | nil => exact fun h => h
    | cons x xs ih => exact fun h' => ih (F.fSum h' h)
  exact key _ h

theorem chunkAcc_rel (a : List α) (off : Int) (i start n : Nat) (zs : List Nat) :
    ResRel (List.Forall₂ S) (chunkAcc R a off i start n zs) (chunkAcc Q a off i start n zs) := by
  refine foldRes_rel (S := List.Forall₂ S) (fun v w z h => ?_) zs ?_
  · exact ResRel.after _ fun k _ => ResRel.after _ fun xs _ => .ok (zipWith_rel (fun s t x => F.f x) xs h)
  · induction n with
    | zero => exact .nil
    | succ n ih => exact .cons F.init ih

theorem rowAcc_rel (a : List α) (chunk : Nat) (off : Int) (i n : Nat) (zs : List Nat) :
    ResRel (List.Forall₂ S) (rowAcc R a chunk off i n zs) (rowAcc Q a chunk off i n zs) :=
  (mapM_rel _ fun _ => chunkAcc_rel F a off i _ _ zs).bind fun _ _ h => .ok (flatten_rel h)

end

section
variable {γ δ : Type}

/-- Cells that are both unwritten, or hold related values. -/
abbrev CellRel {ω υ : Type} (O : ω → υ → Prop) : Option ω → Option υ → Prop := Option.Rel O

theorem modifyAt_rel {S : γ → δ → Prop} {c : List γ} {d : List δ} (h : List.Forall₂ S c d) (i : Nat) {f : γ → γ} {g : δ → δ}
    (hf : ∀ v w, S v w → S (f v) (g w)) : ResRel (List.Forall₂ S) (modifyAt c i f) (modifyAt d i g) := by
  unfold modifyAt
  induction h generalizing i with
  | nil => exact .err _
  | cons h hs ih =>
    cases i with
    | zero => exact .ok (.cons (hf _ _ h) hs)
    | succ i =>
      rename_i x y xs ys
      have := ih i
      simp only [List.getElem?_cons_succ, List.set_cons_succ]
      cases hx : xs[i]? with
      | none =>
        cases hy : ys[i]? with
        | none => exact .err _
        | some w => rw [hx, hy] at this; cases this
      | some v =>
        cases hy : ys[i]? with
        | none => rw [hx, hy] at this; cases this
        | some w =>
          rw [hx, hy] at this
          cases this with
          | ok h' => exact .ok (.cons h h')

theorem runAll_rel {ι : Type} {S : γ → δ → Prop} {f : ι → List γ → Res (List γ)} {g : ι → List δ → Res (List δ)} (xs : List ι)
    (hf : ∀ x c d, List.Forall₂ S c d → ResRel (List.Forall₂ S) (f x c) (g x d)) {c : List γ} {d : List δ} (h : List.Forall₂ S c d) :
    ResRel (List.Forall₂ S) (runAll f xs c) (runAll g xs d) := by
  induction xs generalizing c d with
  | nil => exact .ok h
  | cons x xs ih => exact (hf x c d h).bind fun _ _ h => ih h

/-- Two lists of steps that are related one by one. -/
theorem runAll_rel2 {ι κ : Type} {S : γ → δ → Prop} {P : ι → κ → Prop} {f : ι → List γ → Res (List γ)} {g : κ → List δ → Res (List δ)}
    {xs : List ι} {ys : List κ} (hp : List.Forall₂ P xs ys)
    (hf : ∀ x y c d, P x y → List.Forall₂ S c d → ResRel (List.Forall₂ S) (f x c) (g y d)) {c : List γ} {d : List δ} (h : List.Forall₂ S c d) :
    ResRel (List.Forall₂ S) (runAll f xs c) (runAll g ys d) := by
  induction hp generalizing c d with
  | nil => exact .ok h
  | cons hx _ ih => exact (hf _ _ c d hx h).bind fun _ _ h => ih h

theorem uninit_rel {ω υ : Type} (O : ω → υ → Prop) (n : Int) : List.Forall₂ (CellRel O) (uninit n) (uninit n) := by
  unfold uninit
  induction n.toNat with
  | zero => exact .nil
  | succ n ih => exact .cons .none ih

theorem assumeInit_rel {ω υ : Type} {O : ω → υ → Prop} {c : List (Option ω)} {d : List (Option υ)} (h : List.Forall₂ (CellRel O) c d) :
    ResRel (List.Forall₂ O) (assumeInit c) (assumeInit d) := by
  induction h with
  | nil => exact .ok .nil
  | cons h _ ih =>
    cases h with
    | none => exact .err _
    | some h => exact ih.bind fun _ _ hs => .ok (.cons h hs)

theorem zipIdx_rel {σ τ : Type} {S : σ → τ → Prop} {v : List σ} {w : List τ} (h : List.Forall₂ S v w) (k : Nat) :
    List.Forall₂ (fun p q => S p.1 q.1 ∧ p.2 = q.2) (v.zipIdx k) (w.zipIdx k) := by
  induction h generalizing k with
  | nil => exact .nil
  | cons h _ ih => exact .cons ⟨h, rfl⟩ (ih (k + 1))

end

section
variable {α σ τ ω υ : Type} {S : σ → τ → Prop} {O : ω → υ → Prop} {R : Reducer α σ ω} {Q : Reducer α τ υ} (F : Related S O R Q)
include F

theorem routeS_rel (a : List α) (off : Int) (s0 sc : Nat) (ls lm lo : Layout) {c : List (Option ω)} {d : List (Option υ)}
    (h : List.Forall₂ (CellRel O) c d) :
    ResRel (List.Forall₂ (CellRel O)) (reduceRouteS R a off s0 sc ls lm lo c) (reduceRouteS Q a off s0 sc ls lm lo d) := by
  unfold reduceRouteS
  refine ResRel.after _ fun x1 _ => ResRel.after _ fun xs _ => ResRel.after _ fun x2 _ => ResRel.after _ fun ys _ =>
    ResRel.after _ fun x3 _ => ResRel.after _ fun zs _ => ?_
  refine runAll_rel _ (fun p c d h => ?_) h
  refine (foldRes_rel (S := S) (fun s t z h => ?_) zs F.init).bind fun s t hs => ?_
  · exact ResRel.after _ fun k _ => stepBlock_rel F a sc k h
  · exact modifyAt_rel h p.2 fun _ _ _ => .some (F.fOut (repeatAcc_rel F s0 hs))

theorem routeM_rel (a : List α) (off : Int) (s0 mc : Nat) (ls lm lo : Layout) {c : List (Option ω)} {d : List (Option υ)}
    (h : List.Forall₂ (CellRel O) c d) :
    ResRel (List.Forall₂ (CellRel O)) (reduceRouteM R a off s0 mc ls lm lo c) (reduceRouteM Q a off s0 mc ls lm lo d) := by
  unfold reduceRouteM
  refine ResRel.after _ fun x1 _ => ResRel.after _ fun zs _ => ResRel.after _ fun x2 _ => ResRel.after _ fun xs _ =>
    ResRel.after _ fun x3 _ => ResRel.after _ fun ys _ => ResRel.after _ fun loc _ => ?_
  split
  · exact .err _
  refine runAll_rel _ (fun p c d h => ?_) h
  refine (rowAcc_rel F a 48 off p.1 mc zs).bind fun v w hv => ?_
  refine runAll_rel2 (zipIdx_rel hv 0) (fun q q' c d hq h => ?_) h
  rw [hq.2]
  exact modifyAt_rel h _ fun _ _ _ => .some (F.fOut (repeatAcc_rel F s0 hq.1))

theorem routeD_rel (a : List α) (off : Int) (s0 : Nat) (ls lm lo : Layout) {c : List (Option ω)} {d : List (Option υ)}
    (h : List.Forall₂ (CellRel O) c d) :
    ResRel (List.Forall₂ (CellRel O)) (reduceRouteD R a off s0 ls lm lo c) (reduceRouteD Q a off s0 ls lm lo d) := by
  unfold reduceRouteD
  refine ResRel.after _ fun x1 _ => ResRel.after _ fun xs _ => ResRel.after _ fun x2 _ => ResRel.after _ fun ys _ =>
    ResRel.after _ fun x3 _ => ResRel.after _ fun zs _ => ?_
  refine runAll_rel _ (fun p c d h => ?_) h
  refine (foldRes_rel (S := S) (fun s t z h => ?_) zs F.init).bind fun s t hs => ?_
  · exact ResRel.after _ fun k _ => stepAt_rel F a k h
  · exact modifyAt_rel h p.2 fun _ _ _ => .some (F.fOut (repeatAcc_rel F s0 hs))

omit F in
theorem spread_rel (off : Int) (m0 : Nat) (lm lo : Layout) {c : List (Option ω)} {d : List (Option υ)}
    (h : List.Forall₂ (CellRel O) c d) :
    ResRel (List.Forall₂ (CellRel O)) (reduceSpread off m0 lm lo c) (reduceSpread off m0 lm lo d) := by
  unfold reduceSpread
  split
  · refine ResRel.after _ fun x1 _ => ResRel.after _ fun xs _ => ResRel.after _ fun x2 _ => ResRel.after _ fun ys _ => ?_
    refine runAll_rel _ (fun i c d h => runAll_rel _ (fun j c d h => ?_) h) h
    exact ResRel.after _ fun k _ => (readAt_rel h j).bind fun v w hv => modifyAt_rel h k fun _ _ _ => hv
  · exact .ok h

theorem reduceAxes_rel (dflt : Order) (a : List α) (la : Layout) (axes : List Int) :
    ResRel (fun p q => List.Forall₂ O p.1 q.1 ∧ p.2 = q.2) (reduceAxes dflt R a la axes) (reduceAxes dflt Q a la axes) := by
  unfold reduceAxes
  refine ResRel.after _ fun ⟨ls, lm⟩ _ => ResRel.after _ fun lo _ => ResRel.after _ fun ⟨s0, sc, m0, mc⟩ _ => ?_
  have hr : ResRel (List.Forall₂ (CellRel O))
      (if sc > 1 then reduceRouteS R a la.offset s0 sc ls lm lo (uninit lo.size)
        else if mc > 1 then reduceRouteM R a la.offset s0 mc ls lm lo (uninit lo.size)
        else reduceRouteD R a la.offset s0 ls lm lo (uninit lo.size))
      (if sc > 1 then reduceRouteS Q a la.offset s0 sc ls lm lo (uninit lo.size)
        else if mc > 1 then reduceRouteM Q a la.offset s0 mc ls lm lo (uninit lo.size)
        else reduceRouteD Q a la.offset s0 ls lm lo (uninit lo.size)) := by
    split
    · exact routeS_rel F a _ s0 sc ls lm lo (uninit_rel O _)
    · split
      · exact routeM_rel F a _ s0 mc ls lm lo (uninit_rel O _)
      · exact routeD_rel F a _ s0 ls lm lo (uninit_rel O _)
  exact hr.bind fun _ _ h => (spread_rel la.offset m0 lm lo h).bind fun _ _ h => (assumeInit_rel h).bind fun _ _ h => .ok ⟨h, rfl⟩

end
end Rstsr
