import Verif.Spec.Tblis
import Verif.Thm.Tensordot
import Verif.Thm.AsArray
import Verif.Thm.Transpose
/-!
# Theorems on einsum and tensordot by TBLIS (C92)
-/
namespace Rstsr
open Spec

section
variable {α : Type}

/-! ## Strides -/

theorem colStrides_eq (m : Int) (s : List Nat) : colStrides m s = fStrides m s := by
  induction s generalizing m with
  | nil => rfl
  | cons d ds ih => rw [colStrides, fStrides, ih]

theorem fStrides_concat (acc : Int) (xs : List Nat) (d : Nat) : fStrides acc (xs ++ [d]) = fStrides acc xs ++ [acc * xs.prod] := by
  induction xs generalizing acc with
  | nil => simp [fStrides]
  | cons x xs ih => simp [fStrides, ih, mul_assoc]

theorem rowStrides_eq (s : List Nat) : rowStrides s = strideCContig s := by
  induction s with
  | nil => rfl
  | cons d ds ih =>
    unfold strideCContig at *
    rw [rowStrides, List.reverse_cons, fStrides_concat, List.reverse_append, ih]
    simp

/-- What the library returns is accepted as a tensor. -/
theorem fromTblis_ok {v : List α} {s : List Nat} {stride : List Int} {o : Order} (hv : v.length = s.prod) (hl : stride.length = s.length)
    (hs : s.prod ≠ 0 → stride = if o == .C then rowStrides s else colStrides 1 s) :
    fromTblis v s stride = .ok ⟨v, ⟨mkAxes s stride, 0⟩⟩ ∧ (⟨v, ⟨mkAxes s stride, 0⟩⟩ : Tensor α).WF := by
  have hd : (⟨mkAxes s stride, 0⟩ : Layout).shape = s := mkAxes_dims hl.symm
  have key : (⟨mkAxes s stride, 0⟩ : Layout).Valid ∧ ∃ mn, (⟨mkAxes s stride, 0⟩ : Layout).boundsIndex = .ok (mn, (s.prod : Int)) := by
    by_cases hz : 0 ∈ s
    · have hz' : 0 ∈ (⟨mkAxes s stride, 0⟩ : Layout).shape := hd.symm ▸ hz
      exact ⟨valid_iff.2 (Good.accepted (Or.inl hz')), 0, by rw [boundsIndex_of_zero hz', prod_eq_zero_of hz]; rfl⟩
    · have hp : s.prod ≠ 0 := fun e => hz (List.prod_eq_zero_iff.1 e)
      have := contigLayout_bounds false o s
      rw [hs hp]
      cases o
      · simpa [contigLayout, Layout.newCContig, rowStrides_eq] using this
      · simpa [contigLayout, Layout.newFContig, strideFContig, colStrides_eq] using this
  obtain ⟨hval, mn, hb⟩ := key
  have hn := newF_ok (data := v) hval hb (by omega)
  refine ⟨?_, Int.le_refl 0, hn⟩
  have : Layout.new s stride 0 = .ok ⟨mkAxes s stride, 0⟩ := by
    unfold Layout.new
    rw [if_pos hl.symm]
    exact valid_iff.1 hval
  unfold fromTblis
  rw [this]
  exact hn

theorem readable_of_wf {t : Tensor α} (h : t.WF) : Readable t.toTblis :=
  ⟨by simp [Tensor.toTblis, Layout.shape, Layout.stride], h.full⟩

theorem tblisArr_toTblis (t : Tensor α) : tblisArr t.toTblis = t.arr := rfl

theorem stride_mkAxes {s : List Nat} {t : List Int} (h : t.length = s.length) : (⟨mkAxes s t, 0⟩ : Layout).stride = t := by
  unfold Layout.stride mkAxes
  induction s generalizing t with
  | nil => cases t <;> simp_all
  | cons d ds ih =>
    cases t with
    | nil => simp at h
    | cons x xs => simpa using ih (by simpa using h)

/-! ## Einsum -/

/-- `einsum`: for subscripts that fit and tensors of one device, whatever their layouts, the result is a new tensor on that device whose elements are the
sums of products; it is contiguous in the device's order unless it is empty, and the library's number of threads is as before. -/
theorem C92_einsum [Semiring α] (lib : TblisLib α) (hlib : TblisDoc lib) (cores : Nat) (worker : Bool) (threads : Nat) (subs : List (List Char))
    (out : List Char) (size : Char → Nat) (ops : List (OnDev α)) (dev : FaerDev) (hw : ∀ a ∈ ops, a.t.WF) (hd : ∀ a ∈ ops, a.dev = dev)
    (hl : EinsumLegal subs out (ops.map fun a => a.t.arr.shape) size) :
    ∃ c, einsumF lib cores worker threads subs out ops = ⟨.ok ⟨c, dev⟩, threads⟩ ∧ c.WF ∧ c.arr.shape = out.map size ∧
      (∀ ic, InRange ic (out.map size) → c.arr.elem ic = some (einsumAt subs out (ops.map fun a => a.t.arr) ic)) ∧
      (0 ∉ out.map size → c.layout.offset = 0 ∧ ∀ ic, InRange ic (out.map size) →
        position c.layout.stride c.layout.offset ic = rank dev.order (out.map size) ic) := by
  cases ops with
  | nil => exact absurd (List.map_eq_nil_iff.1 hl.fit.symm) hl.some
  | cons o rest =>
    have hdo := hd o (by simp)
    subst hdo
    obtain ⟨v, stride, h1, h2, h3, h4, h5⟩ := hlib.fresh (o.dev.einsumThreads cores worker) subs out ((o :: rest).map fun t => t.t.toTblis) (o.dev.order == .C)
      size (by simpa [Function.comp_def, Tensor.toTblis, Tensor.arr] using hl)
      (by intro x hx; obtain ⟨a, ha, rfl⟩ := List.mem_map.1 hx; exact readable_of_wf (hw a ha))
    have hall : (rest.all fun t => t.dev.same o.dev) = true := by
      rw [List.all_eq_true]
      intro a ha
      rw [hd a (by simp [ha])]
      simp [FaerDev.same]
    obtain ⟨f1, f2⟩ := fromTblis_ok (o := o.dev.order) h2 (by simpa using h3) h4
    have hs : (⟨mkAxes (out.map size) stride, 0⟩ : Layout).shape = out.map size := mkAxes_dims (by simpa using h3.symm)
    have hst : (⟨mkAxes (out.map size) stride, 0⟩ : Layout).stride = stride := stride_mkAxes (by simpa using h3)
    refine ⟨⟨v, ⟨mkAxes (out.map size) stride, 0⟩⟩, ?_, f2, hs, ?_, ?_⟩
    · simp only [einsumF, einsumOption, hall, Option.all_none, Bool.not_true, Bool.false_eq_true, if_false, Option.map_none, h1, f1]
      rfl
    · intro ic hi
      show element v _ _ _ = _
      rw [hst, h5 ic hi]
      congr 2
      simp [Function.comp_def, tblisArr_toTblis]
    · intro hz
      refine ⟨rfl, fun ic hi => ?_⟩
      have hp : (out.map size).prod ≠ 0 := fun e => hz (List.prod_eq_zero_iff.1 e)
      have := contigLayout_addr false o.dev.order (out.map size) 0 hi
      rw [hst, h4 hp]
      rw [zero_add] at this
      rw [← this]
      cases o.dev.order
      · rw [rowStrides_eq]
        show _ = position (mkAxes _ _ |>.map Axis.str) 0 ic
        rw [show ((mkAxes (out.map size) (strideCContig (out.map size))).map Axis.str) = strideCContig (out.map size) from
          stride_mkAxes (by simp [strideCContig])]
        rfl
      · rw [colStrides_eq]
        show _ = position (mkAxes _ _ |>.map Axis.str) 0 ic
        rw [show ((mkAxes (out.map size) (strideFContig (out.map size))).map Axis.str) = strideFContig (out.map size) from
          stride_mkAxes (by simp [strideFContig])]
        rfl

/-- `einsum_with_output`, `einsum_from`: the sums are put into the output, whatever its layout; cells that are not elements of the output stay as
they are. -/
theorem C92_output [Semiring α] (lib : TblisLib α) (hlib : TblisDoc lib) (cores : Nat) (worker : Bool) (threads : Nat) (subs : List (List Char))
    (out : List Char) (size : Char → Nat) (ops : List (OnDev α)) (dev : FaerDev) (hw : ∀ a ∈ ops, a.t.WF) (hd : ∀ a ∈ ops, a.dev = dev)
    (hl : EinsumLegal subs out (ops.map fun a => a.t.arr.shape) size) (c : Tensor α) (hc : c.WF) (hu : c.Unshared) (hs : c.arr.shape = out.map size) :
    ∃ d, einsumWithOutput lib cores worker threads subs out ops ⟨c, dev⟩ = ⟨.ok ⟨d, c.layout⟩, threads⟩ ∧
      ChangedOnly (Addressed c.layout.stride c.layout.offset c.layout.shape) c.data d ∧
      ∀ ic, InRange ic (out.map size) → (⟨d, c.layout⟩ : Tensor α).arr.elem ic = some (einsumAt subs out (ops.map fun a => a.t.arr) ic) := by
  cases ops with
  | nil => exact absurd (List.map_eq_nil_iff.1 hl.fit.symm) hl.some
  | cons o rest =>
    have hdo := hd o (by simp)
    subst hdo
    obtain ⟨d, h1, h2, h3⟩ := hlib.wrote (o.dev.einsumThreads cores worker) subs out ((o :: rest).map fun t => t.t.toTblis) (o.dev.order == .C)
      size c.toTblis (by simpa [Function.comp_def, Tensor.toTblis, Tensor.arr] using hl)
      (by intro x hx; obtain ⟨a, ha, rfl⟩ := List.mem_map.1 hx; exact readable_of_wf (hw a ha)) ⟨readable_of_wf hc, hu⟩ hs
    have hall : (rest.all fun t => t.dev.same o.dev) = true := by
      rw [List.all_eq_true]
      intro a ha
      rw [hd a (by simp [ha])]
      simp [FaerDev.same]
    refine ⟨d, ?_, h2, ?_⟩
    · have : o.dev.same o.dev = true := by simp [FaerDev.same]
      simp only [einsumWithOutput, einsumOption, hall, Option.all_some, this, Bool.not_true, Bool.false_eq_true, if_false, Option.map_some, h1]
      rfl
    · intro ic hi
      show element d _ _ _ = _
      rw [show c.layout.stride = c.toTblis.stride from rfl, show c.layout.offset = c.toTblis.ptr from rfl, h3 ic hi]
      congr 2
      simp [Function.comp_def, tblisArr_toTblis]

/-- Refused: no operands, operands or an output of different devices, and whatever the library refuses. -/
theorem C92_reject (lib : TblisLib α) (cores : Nat) (worker : Bool) (threads : Nat) (subs : List (List Char)) (out : List Char) :
    (einsumF lib cores worker threads subs out []).result = .error .invalidValue ∧
    (∀ (o : OnDev α) rest, (∃ a ∈ rest, a.dev ≠ o.dev) → (einsumF lib cores worker threads subs out (o :: rest)).result = .error .invalidValue) ∧
    (∀ (o : OnDev α) rest (c : OnDev α), c.dev ≠ o.dev → (einsumWithOutput lib cores worker threads subs out (o :: rest) c).result = .error .invalidValue) ∧
    (∀ (o : OnDev α) rest, (∀ n args r, lib.einsum n subs out args r none = .error ()) →
      (einsumF lib cores worker threads subs out (o :: rest)).result = .error .invalidValue) := by
  have hs : ∀ d e : FaerDev, d ≠ e → d.same e = false := by
    rintro ⟨a, b⟩ ⟨a', b'⟩ h
    simp only [FaerDev.same, Bool.and_eq_false_iff, beq_eq_false_iff_ne]
    by_cases e : b = b'
    · exact Or.inr fun e' => h (by rw [e, e'])
    · exact Or.inl e
  refine ⟨rfl, ?_, ?_, ?_⟩
  · rintro o rest ⟨a, ha, hne⟩
    have : (rest.all fun t => t.dev.same o.dev) = false := by
      rw [List.all_eq_false]
      exact ⟨a, ha, by rw [hs _ _ hne]; simp⟩
    simp [einsumF, einsumOption, this]
    rfl
  · intro o rest c hne
    unfold einsumWithOutput einsumOption
    simp only [Option.all_some, hs _ _ hne, Bool.not_false, if_true]
    split <;> rfl
  · intro o rest h
    unfold einsumF einsumOption
    simp only [Option.map_none, h]
    split
    · rfl
    · split <;> rfl

/-- The library works with the threads of the device's pool, and with one thread in a worker thread: only what it does with that number matters. -/
theorem C92_threads (lib lib' : TblisLib α) (cores : Nat) (worker : Bool) (threads : Nat) (subs : List (List Char)) (out : List Char)
    (o : OnDev α) (rest : List (OnDev α)) (output : Option (OnDev α))
    (h : ∀ args r c, lib.einsum (if worker then 1 else if o.dev.threads = 0 then cores else o.dev.threads) subs out args r c =
      lib'.einsum (if worker then 1 else if o.dev.threads = 0 then cores else o.dev.threads) subs out args r c) :
    einsumOption lib cores worker threads subs out (o :: rest) output = einsumOption lib' cores worker threads subs out (o :: rest) output := by
  unfold einsumOption FaerDev.einsumThreads
  simp only [h]

/-! ## Tensordot -/

theorem dropAxes_sublist {β : Type} (A : List Nat) (xs : List β) : (dropAxes A xs).Sublist xs := by
  unfold dropAxes
  have := (List.filter_sublist (l := xs.zipIdx) (p := fun p => decide (p.2 ∉ A))).map Prod.fst
  rwa [List.zipIdx_map_fst] at this

theorem mem_dropAxes {β : Type} {A : List Nat} {xs : List β} {x : β} (h : x ∈ dropAxes A xs) : ∃ i, i ∉ A ∧ xs[i]? = some x := by
  unfold dropAxes at h
  obtain ⟨⟨y, i⟩, hp, rfl⟩ := List.mem_map.1 h
  rw [List.mem_filter] at hp
  exact ⟨i, by simpa using hp.2, by simpa using List.mem_zipIdx_iff_getElem?.1 hp.1⟩

/-- The subscripts of a tensordot are ones that fit. -/
theorem subscripts_legal {na nb : Nat} {axes : AxesPair} {A B : List Nat} (hr : tensordotAxes na nb axes = .ok (A, B))
    (hab : A.length = B.length) (hA : A.Nodup) (hB : B.Nodup)
    (ra : ∀ x ∈ A, x < na) (rb : ∀ x ∈ B, x < nb) (hn : na + nb - A.length ≤ 52) :
    ∃ sa sb sc, tensordotSubscripts na nb axes = .ok (sa, sb, sc) ∧ sa.length = na ∧ sb.length = nb ∧ sc.Nodup ∧
      (∀ c ∈ sc, ∃ s ∈ [sa, sb], c ∈ s) ∧ (∃ ls : List Char, ls.length ≤ 52 ∧ ∀ s ∈ [sa, sb], ∀ c ∈ s, c ∈ ls) ∧
      ∀ ia ib ic : List Nat, ia.length = na → ib.length = nb →
        (EinsumTerm sa sb sc ia ib ic ↔ TensordotTerm A B ia ib ic) := by
  obtain ⟨l1, la, lb, l2, sa, l3, sb, h1, h2, h3, ca, cb⟩ := labels_core hab hA hB ra rb hn
  have lena : A.length ≤ na := by
    have := (List.subperm_of_subset hA (l₂ := List.range na) fun x hx => List.mem_range.2 (ra x hx)).length_le
    simpa using this
  have ea : sa.length = na := by obtain ⟨_, _, h, _⟩ := ca; exact h
  have eb : sb.length = nb := by obtain ⟨_, _, h, _⟩ := cb; exact h
  have nda := ca.nodup hA le_rfl
  have ndb := cb.nodup hB (by omega)
  have shared : ∀ i j, i < na → j < nb → (sa[i]? = sb[j]? ↔ ∃ t : Nat, A[t]? = some i ∧ B[t]? = some j) :=
    fun i j hi hj => coded_shared hab hA ra ca cb hi hj
  have letter : ∀ {A : List Nat} {base n : Nat} {s : List Char}, Coded A base n s → ∀ c ∈ s, c ∈ einsumLetters := by
    intro A base n s h c hc
    obtain ⟨L, hL, hs, -, k1, k2⟩ := h
    obtain ⟨i, hi⟩ := List.mem_iff_getElem?.1 hc
    have hin : i < n := hs ▸ (List.getElem?_eq_some_iff.1 hi).1
    by_cases hiA : i ∈ A
    · obtain ⟨t, ht⟩ := List.mem_iff_getElem?.1 hiA
      exact List.mem_of_getElem? ((k1 t i ht).symm.trans hi)
    · exact List.mem_of_getElem? ((k2 i hin hiA).2.symm.trans hi)
  refine ⟨sa, sb, freeLabels A sa ++ freeLabels B sb, ?_, ea, eb, ?_, ?_, ⟨einsumLetters, letters_length.le, ?_⟩, ?_⟩
  · unfold tensordotSubscripts
    simp only [hr, ok_bind, h1, h2, h3]
  · rw [freeLabels_eq, freeLabels_eq, List.nodup_append]
    refine ⟨nda.sublist (dropAxes_sublist A sa), ndb.sublist (dropAxes_sublist B sb), ?_⟩
    intro x hx y hy e
    subst e
    obtain ⟨i, hi, ei⟩ := mem_dropAxes hx
    obtain ⟨j, hj, ej⟩ := mem_dropAxes hy
    have hia := (List.getElem?_eq_some_iff.1 ei).1
    have hjb := (List.getElem?_eq_some_iff.1 ej).1
    obtain ⟨t, ht, -⟩ := (shared i j (by omega) (by omega)).1 (ei.trans ej.symm)
    exact hi (List.mem_of_getElem? ht)
  · intro c hc
    rw [freeLabels_eq, freeLabels_eq, List.mem_append] at hc
    rcases hc with hc | hc
    · exact ⟨sa, by simp, (dropAxes_sublist A sa).mem hc⟩
    · exact ⟨sb, by simp, (dropAxes_sublist B sb).mem hc⟩
  · intro s hs c hc
    simp only [List.mem_cons, List.not_mem_nil, or_false] at hs
    rcases hs with rfl | rfl
    · exact letter ca c hc
    · exact letter cb c hc
  · intro ia ib ic ha hb
    rw [freeLabels_eq, freeLabels_eq]
    exact einsum_terms nda ndb (ea.symm ▸ ra) (eb.symm ▸ rb) (fun i j hi hj => shared i j (ea ▸ hi) (eb ▸ hj)) (by omega) (by omega)

/-- Two operands: the sum over chosen index pairs. -/
theorem einsumAt_two [Semiring α] {sa sb sc : List Char} {A B : List Nat} {X Y : Arr α} {ic : List Nat}
    (h : ∀ ia ib : List Nat, ia.length = X.shape.length → ib.length = Y.shape.length → (EinsumTerm sa sb sc ia ib ic ↔ TensordotTerm A B ia ib ic)) :
    einsumAt [sa, sb] sc [X, Y] ic = tensordotAt A B X Y ic := by
  classical
  unfold einsumAt tensordotAt
  have e : choices ([X, Y].map (·.shape)) = (allC X.shape ×ˢ allC Y.shape).map fun p => [p.1, p.2] := by
    simp only [List.map_cons, List.map_nil, choices, List.map_flatMap]
    show _ = List.map _ (List.product _ _)
    unfold List.product
    rw [List.map_flatMap]
    congr 1
    funext i
    simp only [List.map_cons, List.map_nil, List.map_map]
    rw [← List.map_eq_flatMap]
    rfl
  rw [e, List.filter_map, List.map_map]
  congr 1
  have hf : (List.filter ((fun idxs => decide (EinsumTerms [sa, sb] sc idxs ic)) ∘ fun p : List Nat × List Nat => [p.1, p.2]) (allC X.shape ×ˢ allC Y.shape)) =
      (allC X.shape ×ˢ allC Y.shape).filter fun p => TensordotTerm A B p.1 p.2 ic := by
    apply List.filter_congr
    rintro ⟨i, j⟩ hp
    have hp := List.mem_product.1 hp
    have hi := mem_allC.1 hp.1
    have hj := mem_allC.1 hp.2
    rw [Function.comp_apply, decide_eq_decide, ← h i j hi.length_eq hj.length_eq]
    unfold EinsumTerms EinsumTerm
    constructor
    · rintro ⟨σ, e1, e2⟩
      simp only [List.map_cons, List.map_nil, List.cons.injEq, and_true] at e1
      exact ⟨σ, e1.1, e1.2, e2⟩
    · rintro ⟨σ, rfl, rfl, e2⟩
      exact ⟨σ, rfl, e2⟩
  rw [hf]
  apply List.map_congr_left
  intro p _
  simp [termValue]

/-- `tensordot` for resolved axes. -/
theorem tensordot_core [Semiring α] (lib : TblisLib α) (hlib : TblisDoc lib) (cores : Nat) (worker : Bool) (threads : Nat) (a b : Tensor α) (dev : FaerDev)
    (ha : a.WF) (hb : b.WF) {axes : AxesPair} {A B : List Nat} (hr : tensordotAxes a.arr.shape.length b.arr.shape.length axes = .ok (A, B))
    (hab : A.length = B.length) (hA : A.Nodup) (hB : B.Nodup) (ra : ∀ x ∈ A, x < a.arr.shape.length) (rb : ∀ x ∈ B, x < b.arr.shape.length)
    (hn : a.arr.shape.length + b.arr.shape.length - A.length ≤ 52)
    (hs : ∀ t x y : Nat, A[t]? = some x → B[t]? = some y → a.arr.shape[x]? = b.arr.shape[y]?) :
    ∃ c, tensordotF lib cores worker threads ⟨a, dev⟩ ⟨b, dev⟩ axes = ⟨.ok ⟨c, dev⟩, threads⟩ ∧ c.WF ∧
      c.arr.shape = dropAxes A a.arr.shape ++ dropAxes B b.arr.shape ∧
      ∀ ic, InRange ic c.arr.shape → c.arr.elem ic = some (tensordotAt A B a.arr b.arr ic) := by
  have na : a.arr.shape.length = a.layout.ndim := by simp [Tensor.arr, Layout.shape, Layout.ndim]
  have nb : b.arr.shape.length = b.layout.ndim := by simp [Tensor.arr, Layout.shape, Layout.ndim]
  obtain ⟨sa, sb, sc, h1, h2, h3, h4, h5, h6, h7⟩ := subscripts_legal hr hab hA hB ra rb hn
  obtain ⟨size, z1, z2, z3⟩ := (h7 a.arr.shape b.arr.shape _ rfl rfl).2 ⟨hs, rfl⟩
  obtain ⟨c, e1, e2, e3, e4, -⟩ := C92_einsum lib hlib cores worker threads [sa, sb] sc size [⟨a, dev⟩, ⟨b, dev⟩] dev (by simp [ha, hb]) (by simp)
    ⟨by simp, by simp [z1.symm, z2.symm], h4, h5, h6⟩
  refine ⟨c, ?_, e2, e3.trans z3.symm, ?_⟩
  · unfold tensordotF
    rw [← na, ← nb, h1]
    exact e1
  · intro ic hi
    rw [e3] at hi
    rw [e4 ic hi]
    congr 1
    exact einsumAt_two fun ia ib la lb => h7 ia ib ic la lb

/-- `tensordot` for explicit axes, negative ones counted from the end: the result has the other axes of the first operand, then those of the second, and its
elements are the sums of the products over the paired axes. -/
theorem C92_tensordot_pairs [Semiring α] (lib : TblisLib α) (hlib : TblisDoc lib) (cores : Nat) (worker : Bool) (threads : Nat) (a b : Tensor α) (dev : FaerDev)
    (ha : a.WF) (hb : b.WF) (xa xb : List Int) (hl : xa.length = xb.length)
    (oa : ∀ x ∈ xa, AxisOk a.arr.shape.length x) (ob : ∀ x ∈ xb, AxisOk b.arr.shape.length x)
    (da : (xa.map (normAxis a.arr.shape.length)).Nodup) (db : (xb.map (normAxis b.arr.shape.length)).Nodup)
    (hn : a.arr.shape.length + b.arr.shape.length - xa.length ≤ 52)
    (hs : ∀ t x y : Nat, (xa.map (normAxis a.arr.shape.length))[t]? = some x → (xb.map (normAxis b.arr.shape.length))[t]? = some y →
      a.arr.shape[x]? = b.arr.shape[y]?) :
    ∃ c, tensordotF lib cores worker threads ⟨a, dev⟩ ⟨b, dev⟩ (.pair (some xa) (some xb)) = ⟨.ok ⟨c, dev⟩, threads⟩ ∧ c.WF ∧
      c.arr.shape = dropAxes (xa.map (normAxis a.arr.shape.length)) a.arr.shape ++ dropAxes (xb.map (normAxis b.arr.shape.length)) b.arr.shape ∧
      ∀ ic, InRange ic c.arr.shape → c.arr.elem ic =
        some (tensordotAt (xa.map (normAxis a.arr.shape.length)) (xb.map (normAxis b.arr.shape.length)) a.arr b.arr ic) := by
  refine tensordot_core lib hlib cores worker threads a b dev ha hb ?_ (by simp [hl]) da db ?_ ?_ (by simpa using hn) hs
  · have h1 : normalizeAxes (some xa) a.arr.shape.length false false = .ok (xa.map (normAxis a.arr.shape.length)) :=
      normalizeAxes_ok.2 ⟨oa, fun _ => da, by simp⟩
    have h2 : normalizeAxes (some xb) b.arr.shape.length false false = .ok (xb.map (normAxis b.arr.shape.length)) :=
      normalizeAxes_ok.2 ⟨ob, fun _ => db, by simp⟩
    simp only [tensordotAxes, h1, h2, ok_bind]
  · intro x hx
    obtain ⟨y, hy, rfl⟩ := List.mem_map.1 hx
    exact normAxis_lt (oa y hy)
  · intro x hx
    obtain ⟨y, hy, rfl⟩ := List.mem_map.1 hx
    exact normAxis_lt (ob y hy)

/-- The sum over neighbouring axes, written with one index for all of them. -/
theorem tensordotAt_count [Semiring α] {X Y : Arr α} {p s q : List Nat} {A B : List Nat} (hX : X.shape = p ++ s) (hY : Y.shape = s ++ q)
    (h : ∀ ia ib ic : List Nat, ia.length = X.shape.length → ib.length = Y.shape.length → (TensordotTerm A B ia ib ic ↔
      (∀ t < s.length, ia[p.length + t]? = ib[t]?) ∧ ic = ia.take p.length ++ ib.drop s.length))
    {i j : List Nat} (hi : InRange i p) (hj : InRange j q) :
    tensordotAt A B X Y (i ++ j) = ((allC s).map fun k => (X.elem (i ++ k)).getD 0 * (Y.elem (k ++ j)).getD 0).sum := by
  classical
  unfold tensordotAt
  have hp : ((allC X.shape ×ˢ allC Y.shape).filter fun pr => TensordotTerm A B pr.1 pr.2 (i ++ j)).Perm ((allC s).map fun k => (i ++ k, k ++ j)) := by
    rw [List.perm_ext_iff_of_nodup]
    · rintro ⟨ia, ib⟩
      simp only [List.mem_filter, decide_eq_true_eq, List.mem_map, Prod.mk.injEq, mem_allC]
      constructor
      · rintro ⟨hm, ht⟩
        obtain ⟨h1, h2⟩ := List.mem_product.1 hm
        have h1 := mem_allC.1 h1
        have h2 := mem_allC.1 h2
        rw [h ia ib _ h1.length_eq h2.length_eq] at ht
        rw [hX] at h1
        rw [hY] at h2
        obtain ⟨i', k, rfl, a1, a2⟩ := inRange_split h1
        obtain ⟨k', j', rfl, b1, b2⟩ := inRange_split h2
        obtain ⟨t1, t2⟩ := ht
        rw [← a1.length_eq, ← b1.length_eq, List.take_left, List.drop_left] at t2
        obtain ⟨rfl, rfl⟩ := List.append_inj t2 (by rw [hi.length_eq, a1.length_eq])
        have : k = k' := by
          apply List.ext_getElem?
          intro t
          by_cases ht : t < s.length
          · have := t1 t ht
            rwa [List.getElem?_append_right (by rw [a1.length_eq]; omega), a1.length_eq, Nat.add_sub_cancel_left,
              List.getElem?_append_left (by rw [b1.length_eq]; exact ht)] at this
          · rw [List.getElem?_eq_none (by rw [a2.length_eq]; omega), List.getElem?_eq_none (by rw [b1.length_eq]; omega)]
        exact ⟨k, a2, rfl, by rw [this]⟩
      · rintro ⟨k, hk, rfl, rfl⟩
        have r1 : InRange (i ++ k) X.shape := hX ▸ (inRange_append hi.length_eq).2 ⟨hi, hk⟩
        have r2 : InRange (k ++ j) Y.shape := hY ▸ (inRange_append hk.length_eq).2 ⟨hk, hj⟩
        refine ⟨List.mem_product.2 ⟨mem_allC.2 r1, mem_allC.2 r2⟩, ?_⟩
        rw [h _ _ _ r1.length_eq r2.length_eq]
        refine ⟨fun t ht => ?_, ?_⟩
        · rw [List.getElem?_append_right (by rw [hi.length_eq]; omega), hi.length_eq, Nat.add_sub_cancel_left,
              List.getElem?_append_left (by rw [hk.length_eq]; exact ht)]
        · rw [← hi.length_eq, ← hk.length_eq, List.take_left, List.drop_left]
    · exact ((nodup_all .C X.shape).product (nodup_all .C Y.shape)).filter _
    · refine (nodup_all .C s).map ?_
      intro k k' e
      exact List.append_cancel_left (Prod.mk.inj e).1
  rw [(hp.map _).sum_eq, List.map_map]
  rfl

/-- Counted axes, resolved. -/
theorem count_axes {a b : Tensor α} {p s q : List Nat} (hsa : a.arr.shape = p ++ s) (hsb : b.arr.shape = s ++ q)
    (hn : p.length + s.length + q.length ≤ 52) :
    tensordotAxes a.arr.shape.length b.arr.shape.length (.val s.length) = .ok (List.range' p.length s.length, List.range s.length) ∧
    (List.range' p.length s.length).length = (List.range s.length).length ∧
    (∀ x ∈ List.range' p.length s.length, x < a.arr.shape.length) ∧ (∀ x ∈ List.range s.length, x < b.arr.shape.length) ∧
    a.arr.shape.length + b.arr.shape.length - (List.range' p.length s.length).length ≤ 52 ∧
    (∀ ia ib ic : List Nat, ia.length = a.arr.shape.length → ib.length = b.arr.shape.length →
      (TensordotTerm (List.range' p.length s.length) (List.range s.length) ia ib ic ↔
        (∀ t < s.length, ia[p.length + t]? = ib[t]?) ∧ ic = ia.take p.length ++ ib.drop s.length)) ∧
    TensordotTerm (List.range' p.length s.length) (List.range s.length) a.arr.shape b.arr.shape (p ++ q) := by
  have lb : b.arr.shape.length = s.length + q.length := by rw [hsb]; simp
  have la : a.arr.shape.length = p.length + s.length := by rw [hsa]; simp
  have hr : tensordotAxes a.arr.shape.length b.arr.shape.length (.val s.length) = .ok (List.range' p.length s.length, List.range s.length) := by
    simp only [tensordotAxes, Int.toNat_natCast]
    rw [if_neg (by omega), if_neg (by omega), la, Nat.add_sub_cancel]
  have hra : ∀ x ∈ List.range' p.length s.length, x < a.arr.shape.length := fun x hx => by rw [List.mem_range'_1] at hx; omega
  have hrb : ∀ x ∈ List.range s.length, x < b.arr.shape.length := fun x hx => by rw [List.mem_range] at hx; omega
  have hlen : (List.range' p.length s.length).length = (List.range s.length).length := by simp
  have h52 : a.arr.shape.length + b.arr.shape.length - (List.range' p.length s.length).length ≤ 52 := by rw [List.length_range']; omega
  obtain ⟨sa, sb, sc, g1, g2, g3, g4⟩ := subscripts_core hr hlen (List.nodup_range' ..) List.nodup_range hra hrb h52
  obtain ⟨sa', sb', sc', k1, k2, k3, k4⟩ := C58_count a.arr.shape.length b.arr.shape.length s.length (by omega) (by omega) (by omega)
  rw [g1] at k1
  cases k1
  have hterm : ∀ ia ib ic : List Nat, ia.length = a.arr.shape.length → ib.length = b.arr.shape.length →
      (TensordotTerm (List.range' p.length s.length) (List.range s.length) ia ib ic ↔
        (∀ t < s.length, ia[p.length + t]? = ib[t]?) ∧ ic = ia.take p.length ++ ib.drop s.length) := by
    intro ia ib ic h1 h2
    rw [← g4 ia ib ic h1 h2, k4 ia ib ic h1 h2, la, Nat.add_sub_cancel]
  have hd := ((hterm a.arr.shape b.arr.shape (p ++ q) rfl rfl).2 ⟨fun t ht => by
    rw [hsa, hsb, List.getElem?_append_right (by omega), Nat.add_sub_cancel_left, List.getElem?_append_left ht],
    by rw [hsa, hsb, List.take_left, List.drop_left]⟩)
  exact ⟨hr, hlen, hra, hrb, h52, hterm, hd⟩

/-- `tensordot` for a number of axes: the last `n` of the first operand, whose lengths `s` are those of the first `n` of the second, are summed over. -/
theorem C92_tensordot_count [Semiring α] (lib : TblisLib α) (hlib : TblisDoc lib) (cores : Nat) (worker : Bool) (threads : Nat) (a b : Tensor α) (dev : FaerDev)
    (ha : a.WF) (hb : b.WF) (p s q : List Nat) (hsa : a.arr.shape = p ++ s) (hsb : b.arr.shape = s ++ q)
    (hn : p.length + s.length + q.length ≤ 52) :
    ∃ c, tensordotF lib cores worker threads ⟨a, dev⟩ ⟨b, dev⟩ (.val s.length) = ⟨.ok ⟨c, dev⟩, threads⟩ ∧ c.WF ∧ c.arr.shape = p ++ q ∧
      ∀ i j, InRange i p → InRange j q → c.arr.elem (i ++ j) =
        some (((allC s).map fun k => (a.arr.elem (i ++ k)).getD 0 * (b.arr.elem (k ++ j)).getD 0).sum) := by
  obtain ⟨hr, hlen, hra, hrb, h52, hterm, hd⟩ := count_axes hsa hsb hn
  obtain ⟨c, e1, e2, e3, e4⟩ := tensordot_core lib hlib cores worker threads a b dev ha hb hr hlen (List.nodup_range' ..) List.nodup_range hra hrb h52 hd.1
  refine ⟨c, e1, e2, e3.trans hd.2.symm, ?_⟩
  intro i j hi hj
  rw [e4 (i ++ j) (by rw [e3, ← hd.2]; exact (inRange_append hi.length_eq).2 ⟨hi, hj⟩), tensordotAt_count hsa hsb hterm hi hj]

/-- Without axes, two are summed over. -/
theorem C92_tensordot_default (lib : TblisLib α) (cores : Nat) (worker : Bool) (threads : Nat) (a b : OnDev α) :
    tensordotF lib cores worker threads a b .none = tensordotF lib cores worker threads a b (.val 2) := rfl

/-- `tensordot_with_output` for a number of axes. -/
theorem C92_tensordot_output [Semiring α] (lib : TblisLib α) (hlib : TblisDoc lib) (cores : Nat) (worker : Bool) (threads : Nat) (a b : Tensor α) (dev : FaerDev)
    (ha : a.WF) (hb : b.WF) (p s q : List Nat) (hsa : a.arr.shape = p ++ s) (hsb : b.arr.shape = s ++ q)
    (hn : p.length + s.length + q.length ≤ 52) (c : Tensor α) (hc : c.WF) (hu : c.Unshared) (hs : c.arr.shape = p ++ q) :
    ∃ d, tensordotWithOutput lib cores worker threads ⟨a, dev⟩ ⟨b, dev⟩ (.val s.length) ⟨c, dev⟩ = ⟨.ok ⟨d, c.layout⟩, threads⟩ ∧
      ChangedOnly (Addressed c.layout.stride c.layout.offset c.layout.shape) c.data d ∧
      ∀ i j, InRange i p → InRange j q → (⟨d, c.layout⟩ : Tensor α).arr.elem (i ++ j) =
        some (((allC s).map fun k => (a.arr.elem (i ++ k)).getD 0 * (b.arr.elem (k ++ j)).getD 0).sum) := by
  have na : a.arr.shape.length = a.layout.ndim := by simp [Tensor.arr, Layout.shape, Layout.ndim]
  have nb : b.arr.shape.length = b.layout.ndim := by simp [Tensor.arr, Layout.shape, Layout.ndim]
  obtain ⟨hr, hlen, hra, hrb, h52, hterm, hd⟩ := count_axes hsa hsb hn
  obtain ⟨sa, sb, sc, h1, h2, h3, h4, h5, h6, h7⟩ := subscripts_legal hr hlen (List.nodup_range' ..) List.nodup_range hra hrb h52
  obtain ⟨size, z1, z2, z3⟩ := (h7 a.arr.shape b.arr.shape _ rfl rfl).2 hd
  obtain ⟨d, e1, e2, e3⟩ := C92_output lib hlib cores worker threads [sa, sb] sc size [⟨a, dev⟩, ⟨b, dev⟩] dev (by simp [ha, hb]) (by simp)
    ⟨by simp, by simp [z1.symm, z2.symm], h4, h5, h6⟩ c hc hu (hs.trans z3)
  refine ⟨d, ?_, e2, ?_⟩
  · unfold tensordotWithOutput
    rw [← na, ← nb, h1]
    exact e1
  · intro i j hi hj
    rw [e3 (i ++ j) (by rw [← z3]; exact (inRange_append hi.length_eq).2 ⟨hi, hj⟩)]
    congr 1
    exact (einsumAt_two fun ia ib la lb => h7 ia ib _ la lb).trans (tensordotAt_count hsa hsb hterm hi hj)

/-- Axes that `tensordot` refuses, before the library is called: a negative number of axes, and more axes than an operand has. -/
theorem C92_tensordot_reject (lib : TblisLib α) (cores : Nat) (worker : Bool) (threads : Nat) (a b : OnDev α) :
    (∀ n : Int, n < 0 → tensordotF lib cores worker threads a b (.val n) = ⟨.error .invalidValue, threads⟩) ∧
    (∀ n : Nat, a.t.arr.shape.length < n ∨ b.t.arr.shape.length < n → tensordotF lib cores worker threads a b (.val n) = ⟨.error .invalidLayout, threads⟩) := by
  have na : a.t.arr.shape.length = a.t.layout.ndim := by simp [Tensor.arr, Layout.shape, Layout.ndim]
  have nb : b.t.arr.shape.length = b.t.layout.ndim := by simp [Tensor.arr, Layout.shape, Layout.ndim]
  rw [na, nb]
  obtain ⟨h1, h2, -⟩ := C58_reject a.t.layout.ndim b.t.layout.ndim
  exact ⟨fun n hn => by unfold tensordotF; rw [h1 n hn], fun n hn => by unfold tensordotF; rw [h2 n hn]⟩

/-- After an error of the library its number of threads stays that of the device: here 4 instead of 7. -/
theorem C92_false_threads (lib : TblisLib α) (subs : List (List Char)) (out : List Char) (hl : ∀ n args r, lib.einsum n subs out args r none = .error ())
    (a : Tensor α) : einsumF lib 8 false 7 subs out [⟨a, ⟨.C, 4⟩⟩] = ⟨.error .invalidValue, 4⟩ := by
  simp [einsumF, einsumOption, hl, FaerDev.einsumThreads]
  rfl

/-! ## A library that does this -/

open Classical in
/-- A library that does what is asked of TBLIS. -/
noncomputable def refTblis [Semiring α] : TblisLib α where
  einsum _ subs out args rowMajor output :=
    if h : ∃ size, EinsumLegal subs out (args.map TblisTensor.shape) size then
      let s := out.map h.choose
      match output with
      | none => .ok (.fresh ((all (if rowMajor then .C else .F) s).map (einsumAt subs out (args.map tblisArr))) s
          (if rowMajor then rowStrides s else colStrides 1 s))
      | some o => .ok (.wrote (o.mem.mapIdx fun k x =>
          if g : ∃ ic, InRange ic s ∧ position o.stride o.ptr ic = (k : Int) then einsumAt subs out (args.map tblisArr) g.choose else x))
    else .error ()

theorem legal_unique {subs : List (List Char)} {out : List Char} {shapes : List (List Nat)} {f g : Char → Nat} (hf : EinsumLegal subs out shapes f)
    (hg : EinsumLegal subs out shapes g) : out.map f = out.map g := by
  apply List.map_congr_left
  intro c hc
  obtain ⟨s, hs, hcs⟩ := hf.known c hc
  have h1 := hf.fit.symm.trans hg.fit
  have h2 := List.map_inj_left.1 h1 s hs
  exact List.map_inj_left.1 h2 c hcs

theorem refTblis_doc [Semiring α] : TblisDoc (refTblis : TblisLib α) := by
  classical
  constructor
  · intro threads subs out args rowMajor size hl hr
    have h : ∃ size, EinsumLegal subs out (args.map TblisTensor.shape) size := ⟨size, hl⟩
    have hs : out.map h.choose = out.map size := legal_unique h.choose_spec hl
    refine ⟨_, _, (by simp only [refTblis]; rw [dif_pos h, hs]), by simp [length_all], ?_, fun _ => rfl, ?_⟩
    · cases rowMajor
      · simp [colStrides_eq]
      · simp [rowStrides_eq, strideCContig]
    · intro ic hi
      have ha : ∀ o : Order, element ((all o (out.map size)).map (einsumAt subs out (args.map tblisArr)))
          (contigLayout false o (out.map size) 0).stride (contigLayout false o (out.map size) 0).offset ic =
          some (einsumAt subs out (args.map tblisArr) ic) := by
        intro o
        have := contigLayout_addr false o (out.map size) 0 hi
        rw [element_eq (by rw [this]; omega), Layout.pos, this, zero_add, Int.toNat_natCast, List.getElem?_map, all_getElem?_rank hi]
        rfl
      cases rowMajor
      · have h2 := ha .F
        rwa [contigLayout_offset, show (contigLayout false .F (out.map size) 0).stride = colStrides 1 (out.map size) by
          rw [colStrides_eq]; exact stride_mkAxes (by simp [strideFContig])] at h2
      · have h2 := ha .C
        rwa [contigLayout_offset, show (contigLayout false .C (out.map size) 0).stride = rowStrides (out.map size) by
          rw [rowStrides_eq]; exact stride_mkAxes (by simp [strideCContig])] at h2
  · intro threads subs out args rowMajor size output hl hr hw hsh
    have h : ∃ size, EinsumLegal subs out (args.map TblisTensor.shape) size := ⟨size, hl⟩
    have hs : out.map h.choose = out.map size := legal_unique h.choose_spec hl
    refine ⟨_, (by simp only [refTblis]; rw [dif_pos h, hs]), ⟨by simp, ?_⟩, ?_⟩
    · intro k hk
      rw [List.getElem?_mapIdx]
      cases hg : output.mem[k]? with
      | none => rfl
      | some x =>
        rw [Option.map_some, dif_neg]
        rintro ⟨ic, h1, h2⟩
        exact hk ⟨ic, hsh ▸ h1, h2⟩
    · intro ic hi
      obtain ⟨x, hx⟩ := hw.1.2 ic (by show InRange ic output.shape; rw [hsh]; exact hi)
      have hx : element output.mem output.stride output.ptr ic = some x := hx
      unfold element at hx ⊢
      by_cases hneg : position output.stride output.ptr ic < 0
      · simp [hneg] at hx
      · rw [if_neg hneg] at hx ⊢
        rw [List.getElem?_mapIdx, hx, Option.map_some]
        have g : ∃ jc, InRange jc (out.map size) ∧ position output.stride output.ptr jc = (((position output.stride output.ptr ic).toNat : Nat) : Int) :=
          ⟨ic, hi, by omega⟩
        rw [dif_pos g]
        have := hw.2 g.choose ic (by rw [hsh]; exact g.choose_spec.1) (by rw [hsh]; exact hi) (by rw [g.choose_spec.2]; omega)
        rw [this]

/-! ## Examples -/

/-- A 2×3 matrix in a larger storage, read by columns. -/
def einsumX : Tensor Int := ⟨[9, 1, 4, 2, 5, 3, 6], ⟨[⟨2, 1⟩, ⟨3, 2⟩], 1⟩⟩

/-- A 3×2 matrix, its rows backwards. -/
def einsumY : Tensor Int := ⟨[3, 30, 2, 20, 1, 10], ⟨[⟨3, -2⟩, ⟨2, 1⟩], 4⟩⟩

example := C92_tensordot_count (refTblis : TblisLib Int) refTblis_doc 8 false 7 einsumX einsumY ⟨.F, 0⟩ ⟨by decide, rfl⟩ ⟨by decide, rfl⟩
  [2] [3] [2] rfl rfl (by decide)

example : ((allC [3]).map fun k => (einsumX.arr.elem ([1] ++ k)).getD 0 * (einsumY.arr.elem (k ++ [1])).getD 0).sum = 4 * 10 + 5 * 20 + 6 * 30 := by
  decide

/-- The diagonal of a product is a legal sum. -/
example : EinsumLegal [['i', 'k'], ['k', 'i']] ['i'] [[2, 3], [3, 2]] (fun c => if c = 'i' then 2 else 3) :=
  ⟨by decide, by decide, by decide, by decide, ['i', 'k'], by decide, by decide⟩

example := C92_tensordot_pairs (refTblis : TblisLib Int) refTblis_doc 8 true 7 einsumX einsumY ⟨.C, 2⟩ ⟨by decide, rfl⟩ ⟨by decide, rfl⟩
  [-2, 1] [1, -2] rfl (by unfold AxisOk; decide) (by unfold AxisOk; decide) (by decide) (by decide) (by decide) (by
    intro t x y h1 h2
    match t with
    | 0 => cases h1; cases h2; rfl
    | 1 => cases h1; cases h2; rfl
    | t + 2 => simp at h1)

example := C92_tensordot_output (refTblis : TblisLib Int) refTblis_doc 8 false 7 einsumX einsumY ⟨.F, 0⟩ ⟨by decide, rfl⟩ ⟨by decide, rfl⟩
  [2] [3] [2] rfl rfl (by decide) ⟨[0, 0, 0, 0, 0], ⟨[⟨2, 3⟩, ⟨2, 1⟩], 0⟩⟩ ⟨by decide, rfl⟩

end
end Rstsr
