import Verif.Proof.Race
import Verif.Proof.Vecdot
/-!
# Products along axes with related states

The kernels of `vecdot` with two sets of operations that keep a relation run in step. No law is asked of the
operations.
-/
namespace Rstsr
open Spec

section
variable {α β γ δ : Type}

/-- The operations `O` and `Q` keep the relation `S` between accumulators and `C` between cells. -/
structure DotRel (S C : γ → δ → Prop) (O : DotOps α β γ) (Q : DotOps α β δ) : Prop where
  zero : S O.zero Q.zero
  plus : ∀ {s t s' t'}, S s t → S s' t' → S (O.plus s s') (Q.plus t t')
  step : ∀ {s t} (x : α) (y : β), S s t → S (O.plus s (O.mul x y)) (Q.plus t (Q.mul x y))
  cell : ∀ {s t}, S s t → C s t
  cellStep : ∀ {s t} (x : α) (y : β), C s t → C (O.plus s (O.mul x y)) (Q.plus t (Q.mul x y))

variable {S C : γ → δ → Prop} {O : DotOps α β γ} {Q : DotOps α β δ} (F : DotRel S C O Q)

theorem unrolledBinary_zip {σ ω : Type} (R : Reducer (α × β) σ ω) (xs : List α) (ys : List β) :
    unrolledBinaryReduce R xs ys = unrolledReduce R (xs.zip ys) := by
  unfold unrolledBinaryReduce unrolledReduce
  have := unroll8Binary_eq R.f ⟨R.init, R.init, R.init, R.init, R.init, R.init, R.init, R.init⟩ xs ys
  generalize unroll8Binary R.f _ xs ys = r at this ⊢
  generalize unroll8 R.f _ (xs.zip ys) = r' at this ⊢
  obtain ⟨p, us, vs⟩ := r
  obtain ⟨p', zs⟩ := r'
  simp only at this ⊢
  rw [this.1, this.2]

include F

theorem DotRel.related : Related S S O.reducer Q.reducer := ⟨F.zero, fun x h => F.step x.1 x.2 h, F.plus, fun h => h⟩

theorem dotBlocks_rel (a : List α) (b : List β) (offA offB : Int) (n : Nat) (zs : List (Nat × Nat)) (i j : Nat) :
    ResRel S (dotBlocks O a b offA offB n zs i j) (dotBlocks Q a b offA offB n zs i j) := by
  refine foldRes_rel (fun s t z h => ?_) zs F.zero
  refine ResRel.after _ fun _ _ => ResRel.after _ fun _ _ => ResRel.after _ fun xs _ => ResRel.after _ fun ys _ => .ok (F.plus h ?_)
  rw [unrolledBinary_zip, unrolledBinary_zip]
  exact unrolledReduce_rel F.related _

theorem dotGeneral_rel (a : List α) (b : List β) (offA offB : Int) (las lbs : Layout) (zs : List (Nat × Nat)) (i j : Nat) :
    ResRel S (dotGeneral O a b offA offB las lbs zs i j) (dotGeneral Q a b offA offB las lbs zs i j) := by
  unfold dotGeneral
  split
  · refine foldRes_rel (fun s t k h => ?_) _ F.zero
    exact ResRel.after _ fun _ _ => ResRel.after _ fun _ _ => .ok (F.step _ _ h)
  · refine foldRes_rel (fun s t k h => ?_) _ F.zero
    exact ResRel.after _ fun _ _ => ResRel.after _ fun _ _ => ResRel.after _ fun _ _ => ResRel.after _ fun _ _ => .ok (F.step _ _ h)

omit F in
theorem dispatch3_rel {ε ζ : Type} {S : ε → ζ → Prop} {f : Nat × Nat × Nat → List ε → Res (List ε)} {g : Nat × Nat × Nat → List ζ → Res (List ζ)}
    (hf : ∀ x c d, List.Forall₂ S c d → ResRel (List.Forall₂ S) (f x c) (g x d)) (la lb lc : Layout) {c : List ε} {d : List ζ}
    (h : List.Forall₂ S c d) : ResRel (List.Forall₂ S) (dispatch3 la lb lc f c) (dispatch3 la lb lc g d) := by
  unfold dispatch3
  split
  · exact .err _
  · split
    · exact .err _
    · exact ResRel.after _ fun _ _ => ResRel.after _ fun _ _ => ResRel.after _ fun _ _ => runAll_rel _ hf h

theorem dotRouteS_rel (dflt : Order) (a : List α) (b : List β) (offA offB : Int) (g : DotCfg) {c : List (Option γ)} {d : List (Option δ)}
    (h : List.Forall₂ (CellRel C) c d) :
    ResRel (List.Forall₂ (CellRel C)) (dotRouteS dflt O a b offA offB g c) (dotRouteS dflt Q a b offA offB g d) := by
  unfold dotRouteS
  refine ResRel.after _ fun _ _ => ResRel.after _ fun _ _ => ResRel.after _ fun _ _ => ResRel.after _ fun l1 _ => ResRel.after _ fun l2 _ => ?_
  split
  · refine ResRel.after _ fun zs _ => dispatch3_rel (fun p c d h => ?_) _ _ _ h
    exact (dotBlocks_rel F a b offA offB _ zs _ _).bind fun v w hv => modifyAt_rel h _ fun _ _ _ => .some (F.cell hv)
  · exact .err _

theorem dotChunk_rel (a : List α) (b : List β) (offA offB : Int) (zs : List (Nat × Nat)) (ic ia ib m : Nat) {c : List (Option γ)}
    {d : List (Option δ)} (h : List.Forall₂ (CellRel C) c d) :
    ResRel (List.Forall₂ (CellRel C)) (dotChunk O a b offA offB zs ic ia ib m c) (dotChunk Q a b offA offB zs ic ia ib m d) := by
  refine runAll_rel zs (fun z c d h => ?_) h
  refine ResRel.after _ fun _ _ => ResRel.after _ fun _ _ => ResRel.after _ fun _ _ => ResRel.after _ fun _ _ => ?_
  refine runAll_rel _ (fun q c d h => ?_) h
  refine modifyAt_rel h _ fun v w hv => ?_
  cases hv with
  | none => exact .none
  | some hv => exact .some (F.cellStep _ _ hv)

theorem dotRouteM_rel (dflt : Order) (a : List α) (b : List β) (offA offB : Int) (g : DotCfg) {c : List (Option γ)} {d : List (Option δ)}
    (h : List.Forall₂ (CellRel C) c d) :
    ResRel (List.Forall₂ (CellRel C)) (dotRouteM dflt O a b offA offB g c) (dotRouteM dflt Q a b offA offB g d) := by
  unfold dotRouteM
  refine ResRel.after _ fun n _ => ResRel.after _ fun _ _ => ResRel.after _ fun _ _ => ResRel.after _ fun _ _ =>
    ResRel.after _ fun l1 _ => ResRel.after _ fun l2 _ => ?_
  split
  · refine ResRel.after _ fun zs _ => dispatch3_rel (fun p c d h => ?_) _ _ _ h
    rw [h.length_eq]
    split
    · exact .err _
    · refine ResRel.bind (S := List.Forall₂ (CellRel C)) ?_ fun c d h => ?_
      · refine runAll_rel _ (fun t c d h => ?_) h
        exact modifyAt_rel h _ fun _ _ _ => .some (F.cell F.zero)
      · refine runAll_rel _ (fun k c d h => ?_) h
        exact dotChunk_rel F a b offA offB zs _ _ _ _ h
  · exact .err _

theorem dotRouteD_rel (a : List α) (b : List β) (offA offB : Int) (g : DotCfg) {c : List (Option γ)} {d : List (Option δ)}
    (h : List.Forall₂ (CellRel C) c d) :
    ResRel (List.Forall₂ (CellRel C)) (dotRouteD O a b offA offB g c) (dotRouteD Q a b offA offB g d) := by
  unfold dotRouteD
  refine ResRel.after _ fun zs _ => dispatch3_rel (fun p c d h => ?_) _ _ _ h
  exact (dotGeneral_rel F a b offA offB _ _ zs _ _).bind fun v w hv => modifyAt_rel h _ fun _ _ _ => .some (F.cell hv)

theorem vecdotKernel_rel (dflt order : Order) {c : List (Option γ)} {d : List (Option δ)} (h : List.Forall₂ (CellRel C) c d) (lc : Layout)
    (a : List α) (la : Layout) (b : List β) (lb : Layout) (axesA axesB : List Int) :
    ResRel (List.Forall₂ (CellRel C)) (vecdotKernel dflt order O c lc a la b lb axesA axesB)
      (vecdotKernel dflt order Q d lc a la b lb axesA axesB) := by
  unfold vecdotKernel
  refine ResRel.after _ fun g _ => ?_
  split
  · exact dotRouteS_rel F dflt a b _ _ g h
  · split
    · exact dotRouteM_rel F dflt a b _ _ g h
    · exact dotRouteD_rel F a b _ _ g h

omit F in
theorem parIter3_rel {ε ζ : Type} {S : ε → ζ → Prop} {f : Plan → Nat × Nat × Nat → Res (Proc ε)} {g : Plan → Nat × Nat × Nat → Res (Proc ζ)}
    (h : ∀ p x, ResRel (ProcRel S) (f p x) (g p x)) (p : Sched) (a b c : Iter) :
    ResRel (ProcRel S) (parIter3 f p a b c) (parIter3 g p a b c) := by
  induction p generalizing a b c with
  | run inner =>
    exact ResRel.after _ fun xs _ => ResRel.after _ fun ys _ => ResRel.after _ fun zs _ => procLoop_rel _ fun x => h _ _
  | split k p q ip iq =>
    exact ResRel.after _ fun x _ => ResRel.after _ fun y _ => ResRel.after _ fun z _ => (ip _ _ _).bind fun _ _ h1 =>
      (iq _ _ _).bind fun _ _ h2 => .ok (.par h1 h2)

omit F in
theorem dispatchPar3_rel {ε ζ : Type} {S : ε → ζ → Prop} {f : Plan → Nat × Nat × Nat → Res (Proc ε)} {g : Plan → Nat × Nat × Nat → Res (Proc ζ)}
    (h : ∀ p x, ResRel (ProcRel S) (f p x) (g p x)) (la lb lc : Layout) (s : Scheduler) (n : Nat) :
    ResRel (ProcRel S) (dispatchPar3 la lb lc f s n) (dispatchPar3 la lb lc g s n) := by
  unfold dispatchPar3
  split
  · exact .err _
  · split
    · exact .err _
    · exact ResRel.after _ fun _ _ => ResRel.after _ fun _ _ => ResRel.after _ fun _ _ => parIter3_rel h _ _ _ _

theorem dotRouteSPar_rel (dflt : Order) (s : Scheduler) (a : List α) (b : List β) (offA offB : Int) (g : DotCfg) :
    ResRel (ProcRel (CellRel C)) (dotRouteSPar dflt s O a b offA offB g) (dotRouteSPar dflt s Q a b offA offB g) := by
  unfold dotRouteSPar
  refine ResRel.after _ fun _ _ => ResRel.after _ fun _ _ => ResRel.after _ fun _ _ => ResRel.after _ fun l1 _ => ResRel.after _ fun l2 _ => ?_
  split
  · refine ResRel.after _ fun zs _ => dispatchPar3_rel (fun _ p => ?_) _ _ _ _ _
    exact (dotBlocks_rel F a b offA offB _ zs _ _).bind fun v w hv => .ok (.upd _ fun _ _ _ => .some (F.cell hv))
  · exact .err _

theorem dotRouteMPar_rel (dflt : Order) (s : Scheduler) (a : List α) (b : List β) (offA offB : Int) (g : DotCfg) :
    ResRel (ProcRel (CellRel C)) (dotRouteMPar dflt s O a b offA offB g) (dotRouteMPar dflt s Q a b offA offB g) := by
  unfold dotRouteMPar
  refine ResRel.after _ fun n _ => ResRel.after _ fun _ _ => ResRel.after _ fun _ _ => ResRel.after _ fun _ _ =>
    ResRel.after _ fun l1 _ => ResRel.after _ fun l2 _ => ?_
  split
  · refine ResRel.after _ fun zs _ => dispatchPar3_rel (fun inner p => ?_) _ _ _ _ _
    refine ResRel.bind (S := ProcRel (CellRel C)) ?_ fun _ _ h1 => ?_
    · exact procLoop_rel _ fun t => .ok (.upd _ fun _ _ _ => .some (F.cell F.zero))
    refine (parRange_rel inner _ fun k => ?_).bind fun _ _ h2 => .ok (.seq h1 h2)
    refine procLoop_rel _ fun z => ?_
    refine ResRel.after _ fun _ _ => ResRel.after _ fun _ _ => ResRel.after _ fun _ _ => ResRel.after _ fun _ _ => ?_
    refine procLoop_rel _ fun q => .ok (.upd _ fun v w hv => ?_)
    cases hv with
    | none => exact .none
    | some hv => exact .some (F.cellStep _ _ hv)
  · exact .err _

theorem dotRouteDPar_rel (s : Scheduler) (a : List α) (b : List β) (offA offB : Int) (g : DotCfg) :
    ResRel (ProcRel (CellRel C)) (dotRouteDPar s O a b offA offB g) (dotRouteDPar s Q a b offA offB g) := by
  unfold dotRouteDPar
  refine ResRel.after _ fun zs _ => dispatchPar3_rel (fun _ p => ?_) _ _ _ _ _
  exact (dotGeneral_rel F a b offA offB _ _ zs _ _).bind fun v w hv => .ok (.upd _ fun _ _ _ => .some (F.cell hv))

/-- Work that runs in step. -/
inductive WorkRel {ε ζ : Type} (S : ε → ζ → Prop) : Work ε → Work ζ → Prop
  | done {c d} : List.Forall₂ S c d → WorkRel S (.done c) (.done d)
  | threads {p q} : ProcRel S p q → WorkRel S (.threads p) (.threads q)

theorem vecdotDevice_rel (dflt order : Order) (par : Option (Bool × Scheduler)) {c : List (Option γ)} {d : List (Option δ)}
    (h : List.Forall₂ (CellRel C) c d) (lc : Layout) (a : List α) (la : Layout) (b : List β) (lb : Layout) (axesA axesB : List Int) :
    ResRel (WorkRel (CellRel C)) (vecdotDevice dflt order par O c lc a la b lb axesA axesB)
      (vecdotDevice dflt order par Q d lc a la b lb axesA axesB) := by
  match par with
  | none => exact (vecdotKernel_rel F dflt order h lc a la b lb axesA axesB).map fun _ _ h => .done h
  | some (pool, s) =>
    simp only [vecdotDevice, vecdotKernelPar]
    split
    · exact (vecdotKernel_rel F dflt order h lc a la b lb axesA axesB).map fun _ _ h => .done h
    · refine ResRel.after _ fun g _ => ?_
      refine ResRel.map (S := ProcRel (CellRel C)) ?_ fun _ _ h => .threads h
      split
      · exact dotRouteSPar_rel F dflt s a b _ _ g
      · split
        · exact dotRouteMPar_rel F dflt s a b _ _ g
        · exact dotRouteDPar_rel F s a b _ _ g

theorem vecdot_rel (dflt dev : Order) (par : Option (Bool × Scheduler)) (a : Tensor α) (b : Tensor β) (axes : AxesPair) :
    ResRel (RunRel C (TensorRel C)) (a.vecdot dflt dev par O b axes) (a.vecdot dflt dev par Q b axes) := by
  unfold Tensor.vecdot
  refine ResRel.after _ fun ⟨axesA, axesB⟩ _ => ResRel.after _ fun ⟨las, lam⟩ _ => ResRel.after _ fun ⟨lbs, lbm⟩ _ => ?_
  simp only
  split
  · exact .err _
  refine ResRel.after _ fun ⟨lam, lbm⟩ _ => ResRel.after _ fun lc _ => ResRel.after _ fun ⟨_, n⟩ _ => ?_
  refine (vecdotDevice_rel F dflt dev par (uninit_rel C _) lc _ _ _ _ axesA axesB).bind fun w w' h => ?_
  cases h with
  | done h => exact (assumeInit_rel h).bind fun _ _ h => (newF_rel lc h).bind fun _ _ h => .ok (.done h)
  | threads h => exact .ok (.threads h fun c d h => (assumeInit_rel h).bind fun _ _ h => newF_rel lc h)

theorem vecdotFrom_rel (dflt dev : Order) (par : Option (Bool × Scheduler)) {c : Tensor γ} {d : Tensor δ} (h : TensorRel C c d)
    (a : Tensor α) (b : Tensor β) (axes : AxesPair) :
    ResRel (WorkRel (CellRel C)) (c.vecdotFrom dflt dev par O a b axes) (d.vecdotFrom dflt dev par Q a b axes) := by
  unfold Tensor.vecdotFrom
  refine ResRel.after _ fun ⟨axesA, axesB⟩ _ => ResRel.after _ fun ⟨las, lam⟩ _ => ResRel.after _ fun ⟨lbs, lbm⟩ _ => ?_
  simp only
  split
  · exact .err _
  refine ResRel.after _ fun s _ => ?_
  rw [h.2]
  split
  · exact .err _
  · refine vecdotDevice_rel F dflt dev par ?_ _ _ _ _ _ axesA axesB
    rw [List.forall₂_map_left_iff, List.forall₂_map_right_iff]
    exact h.1.imp fun _ _ h => .some h

end
end Rstsr
